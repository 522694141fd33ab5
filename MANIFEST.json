{
 "claims": [
  {
   "property": "C01",
   "status": "partial",
   "theorems": [
    "Verif.Props.C01_lockstep_partial",
    "Verif.Props.C01_failed_call_no_effect",
    "Verif.Props.C01_negation_appendLinked",
    "Verif.Props.C01_negation_setField",
    "Verif.Props.C01_negation_duplicate"
   ],
   "note": "False as stated: three kinds of call break lockstep (negations proved). Proved for all histories whose calls respect the linking; failing calls other than appendLinked change nothing."
  },
  {
   "property": "C02",
   "status": "partial",
   "theorems": [
    "Verif.Props.C02_refines_tables_partial",
    "Verif.Props.C02_append",
    "Verif.Props.C02_getLinked",
    "Verif.Props.C02_negation_convertField",
    "Verif.Props.C02_negation_negativeIndex",
    "Verif.Props.C02_negation_emptyName"
   ],
   "note": "Refinement to buffer-free tables for all histories without convertField and without the field name ''. The excluded cases and negative indices violate the property (negations)."
  },
  {
   "property": "C03",
   "status": "proved",
   "theorems": [
    "Verif.Props.C03_iteration"
   ],
   "note": ""
  },
  {
   "property": "C04",
   "status": "partial",
   "theorems": [
    "Verif.Props.C04_batches",
    "Verif.Props.C04_batches_permutation",
    "Verif.Props.C04_errors",
    "Verif.Props.C04_randomBatches_not_random"
   ],
   "note": "Coverage proved in full; the claim that randomBatches is random is false (it always uses the plain order)."
  },
  {
   "property": "C05",
   "status": "proved",
   "theorems": [
    "Verif.Props.C05_sequences",
    "Verif.Props.C05_call_outcome"
   ],
   "note": "Also covers removeSequence, clear, linked reads and gotoSequence inside the history. Samples have the declared widths (ill-shaped samples: C01)."
  },
  {
   "property": "C06",
   "status": "partial",
   "theorems": [
    "Verif.Props.C06_removeSequence_partial",
    "Verif.Props.C06_negation_negative"
   ],
   "note": "Proved for every index >= 0; negative indices are accepted and corrupt the data (negation)."
  },
  {
   "property": "C07",
   "status": "proved",
   "theorems": [
    "Verif.Props.C07_supervised_split",
    "Verif.Props.C07_sequential_split"
   ],
   "note": ""
  },
  {
   "property": "C08",
   "status": "partial",
   "theorems": [
    "Verif.Props.C08_roundtrip",
    "Verif.Props.C08_rows_partial",
    "Verif.Props.C08_unset_classes",
    "Verif.Props.C08_negation_fractional_bound"
   ],
   "note": "Round trip proved for all bounds. The shape of the rows is proved when the upper bound fits the array's type; with an int lower bound a fractional upper bound is truncated (negation)."
  },
  {
   "property": "C09",
   "status": "partial",
   "theorems": [
    "Verif.Props.C09_splitByClass_partial",
    "Verif.Props.C09_histogram_partial",
    "Verif.Props.C09_negation_stale_class",
    "Verif.Props.C09_negation_histogram"
   ],
   "note": "False in general: splitByClass reads a class field that lags behind added samples, and the histogram ranges over the number of distinct labels. Proved when the class field is up to date / labels are in range."
  },
  {
   "property": "C54",
   "status": "proved",
   "theorems": [
    "Verif.Props.C54_add",
    "Verif.Props.C54_rejects"
   ],
   "note": ""
  },
  {
   "property": "C10",
   "status": "proved",
   "theorems": [
    "Verif.Props.C10_topological_sort",
    "Verif.Props.C10_result_is_order",
    "Verif.Props.C10_dangling"
   ],
   "note": ""
  },
  {
   "property": "C53",
   "status": "partial",
   "theorems": [
    "Verif.Props.C53_length_partial",
    "Verif.Props.C53_negation"
   ],
   "note": "False as stated: the field with the alphabetically largest name decides."
  },
  {
   "property": "C12",
   "status": "proved",
   "theorems": [
    "Verif.Props.C12_activate",
    "Verif.Props.C12_history",
    "Verif.Props.C12_order"
   ],
   "note": ""
  },
  {
   "property": "C13",
   "status": "proved",
   "theorems": [
    "Verif.Props.C13_backprop_is_gradient",
    "Verif.Props.C13_partial_derivatives",
    "Verif.Props.C13_library_networks"
   ],
   "note": "Chain rule for the composition, given components whose backward is their vector-Jacobian product; C13_library_networks instantiates it with the library layers and connections for which C14 and C15 hold."
  },
  {
   "property": "C14",
   "status": "partial",
   "theorems": [
    "Verif.Props.C14_linear",
    "Verif.Props.C14_tanh",
    "Verif.Props.C14_softsign",
    "Verif.Props.C14_relu",
    "Verif.Props.C14_multiplication",
    "Verif.Props.C14_bias",
    "Verif.Props.C14_sigmoid_partial",
    "Verif.Props.C14_gate_partial",
    "Verif.Props.C14_doublegate_partial",
    "Verif.Props.C14_switch_partial",
    "Verif.Props.C14_softmax_partial",
    "Verif.Props.C14_negation_sigmoid_clipped",
    "Verif.Props.C14_negation_softmax"
   ],
   "note": "Sigmoid-based layers only for inputs strictly inside the clipping bounds (outside, the reported derivative is not the derivative of the clipped function: negation). Softmax's backward is the identity, which is not its VJP (negation) but is right for cross entropy (partial)."
  },
  {
   "property": "C15",
   "status": "partial",
   "theorems": [
    "Verif.Props.C15_identity",
    "Verif.Props.C15_full",
    "Verif.Props.C15_linear_partial",
    "Verif.Props.C15_negation_linear",
    "Verif.Props.C15_fullnotself_partial",
    "Verif.Props.C15_negation_fullnotself",
    "Verif.Props.C15_permutation",
    "Verif.Props.C15_negation_permutation"
   ],
   "note": "Identity and full connections in full. LinearConnection's parameter derivative, FullNotSelfConnection's diagonal and PermutationConnection for non-involutions are wrong (negations), the rest of them is proved."
  },
  {
   "property": "C11",
   "status": "proved",
   "theorems": [
    "Verif.Props.C11_faithful_view",
    "Verif.Props.C11_round_trip"
   ],
   "note": "Over every history of parameter operations on a network without owner. Vectors passed to _setParameters have the right length (the code does not check it)."
  },
  {
   "property": "C16",
   "status": "proved",
   "theorems": [
    "Verif.Props.C16_recurrent_activation",
    "Verif.Props.C16_growth"
   ],
   "note": "Modules are functions of their current row; layers that look back in time themselves (LSTM) are outside this model."
  },
  {
   "property": "C55",
   "status": "partial",
   "theorems": [
    "Verif.Props.C55_expln",
    "Verif.Props.C55_tanh",
    "Verif.Props.C55_sigmoid_partial",
    "Verif.Props.C55_semilinear_partial",
    "Verif.Props.C55_negation_semilinear_clipped",
    "Verif.Props.C55_positive",
    "Verif.Props.C55_sigmoid_range"
   ],
   "note": "Beyond the clipping bounds the reported derivatives of sigmoid and semilinear are not the derivatives of the clipped functions (negations here and in C14)."
  },
  {
   "property": "C56",
   "status": "partial",
   "theorems": [
    "Verif.Props.C56_negation",
    "Verif.Props.C56_with_activate_partial"
   ],
   "note": "False as stated: output errors of inner modules accumulate. True when activate is called in between."
  },
  {
   "property": "C57",
   "status": "partial",
   "theorems": [
    "Verif.Props.C57_copy_independent_partial",
    "Verif.Props.C57_negation_derivatives"
   ],
   "note": "Equality and independence proved; the copy's derivative vector is disconnected from its components (negation)."
  },
  {
   "property": "C58",
   "status": "proved",
   "theorems": [
    "Verif.Props.C58_forget"
   ],
   "note": "For recurrent connections that map zero to zero (all linear ones)."
  },
  {
   "property": "C59",
   "status": "proved",
   "theorems": [
    "Verif.Props.C59_bptt",
    "Verif.Props.C59_library_networks"
   ],
   "note": "Same component hypotheses as C13. Layers with internal memory (LSTM) are outside this model."
  },
  {
   "property": "C17",
   "status": "proved",
   "theorems": [
    "Verif.Props.C17_decode",
    "Verif.Props.C17_encode",
    "Verif.Props.C17_one_bit"
   ],
   "note": "gray2int takes the number of bits; the theorems hold for every size the number fits into."
  },
  {
   "property": "C18",
   "status": "partial",
   "theorems": [
    "Verif.Props.C18_iterCombinations_partial",
    "Verif.Props.C18_negation_iterCombinations",
    "Verif.Props.C18_crossproduct_partial",
    "Verif.Props.C18_negation_crossproduct",
    "Verif.Props.C18_dictCombinations"
   ],
   "note": "dictCombinations in full. iterCombinations(()) yields nothing; crossproduct raises when a collection other than the last is empty."
  },
  {
   "property": "C19",
   "status": "partial",
   "theorems": [
    "Verif.Props.C19_flood",
    "Verif.Props.C19_flood_relevant",
    "Verif.Props.C19_reachable_partial",
    "Verif.Props.C19_reachable_total",
    "Verif.Props.C19_negation_through_destination",
    "Verif.Props.C19_negation_adjacent_starts"
   ],
   "note": "flood in full. reachable reports the destinations that can be reached without passing through another one; it misses those behind another destination and neighbouring starts that are destinations."
  },
  {
   "property": "C20",
   "status": "proved",
   "theorems": [
    "Verif.Props.C20_matrix_roundtrip",
    "Verif.Props.C20_vector_roundtrip",
    "Verif.Props.C20_upper"
   ],
   "note": "With integer division for the vector length (as in Python 2)."
  },
  {
   "property": "C60",
   "status": "partial",
   "theorems": [
    "Verif.Props.C60_asBinary",
    "Verif.Props.C60_one_to_n",
    "Verif.Props.C60_binArr2int_partial",
    "Verif.Props.C60_binArr2int_injective",
    "Verif.Props.C60_negation_binArr2int"
   ],
   "note": "binArr2int is the number written by the bits only for lengths that are multiples of 8."
  },
  {
   "property": "C61",
   "status": "proved",
   "theorems": [
    "Verif.Props.C61_permuteToBlocks",
    "Verif.Props.C61_permuteToBlocks3d",
    "Verif.Props.C61_dimensions",
    "Verif.Props.C61_blockList2Matrix"
   ],
   "note": ""
  },
  {
   "property": "C21",
   "status": "proved",
   "theorems": [
    "Verif.Props.C21_front",
    "Verif.Props.C21_front_no_equality",
    "Verif.Props.C21_constrained"
   ],
   "note": "For any traversal order of the sets. The front keeps the smallest values. `_non_dominated_front_merge_arr` slices with `l / 2`; the model takes integer division as in Python 2 (a TypeError in Python 3 for more than 100 items)."
  },
  {
   "property": "C22",
   "status": "proved",
   "theorems": [
    "Verif.Props.C22_sort",
    "Verif.Props.C22_const_sort"
   ],
   "note": "Same reading of `l / 2` as C21."
  },
  {
   "property": "C23",
   "status": "proved",
   "theorems": [
    "Verif.Props.C23_select"
   ],
   "note": "The population's fronts are those of C22. When a front has to be cut and all its members agree in an objective, the crowding distance divides by zero (see C62)."
  },
  {
   "property": "C24",
   "status": "proved",
   "theorems": [
    "Verif.Props.C24_rank",
    "Verif.Props.C24_permutation",
    "Verif.Props.C24_monotone"
   ],
   "note": "NaN-free fitnesses."
  },
  {
   "property": "C62",
   "status": "partial",
   "theorems": [
    "Verif.Props.C62_extremes",
    "Verif.Props.C62_inner",
    "Verif.Props.C62_inner_all",
    "Verif.Props.C62_negation_constant"
   ],
   "note": "Extremes for any number of objectives; the exact value of inner individuals for one objective with ties, and for any number of objectives without ties. A constant objective with three or more individuals divides by zero (negation)."
  },
  {
   "property": "C63",
   "status": "partial",
   "theorems": [
    "Verif.Props.C63_default",
    "Verif.Props.C63_exponential",
    "Verif.Props.C63_hansen",
    "Verif.Props.C63_smoothGini",
    "Verif.Props.C63_topSelection",
    "Verif.Props.C63_topLinear",
    "Verif.Props.C63_bilinear",
    "Verif.Props.C63_negation_tournament"
   ],
   "note": "TournamentSelection is wrong: it counts positions inside the tournament."
  },
  {
   "property": "C25",
   "status": "partial",
   "theorems": [
    "Verif.Props.C25_best_so_far",
    "Verif.Props.C25_stored",
    "Verif.Props.C25_hillClimber",
    "Verif.Props.C25_randomSearch",
    "Verif.Props.C25_negation_es",
    "Verif.Props.C25_negation_stochastic"
   ],
   "note": "Single-objective evaluations. Holds for any series of evaluations and for runs of HillClimber and RandomSearch. ES violates it (setEvaluator overwrites the best evaluable), and StochasticHillClimber reports its current point."
  },
  {
   "property": "C26",
   "status": "partial",
   "theorems": [
    "Verif.Props.C26_direction",
    "Verif.Props.C26_duality",
    "Verif.Props.C26_library_steps",
    "Verif.Props.C26_reported",
    "Verif.Props.C26_negation_late_change",
    "Verif.Props.C26_negation_second_evaluator"
   ],
   "note": "Holds for optimizers given one evaluator, with the direction fixed before the first evaluation; both remaining histories are counterexamples."
  },
  {
   "property": "C27",
   "status": "partial",
   "theorems": [
    "Verif.Props.C27_budgets",
    "Verif.Props.C27_library_steps",
    "Verif.Props.C27_negation_maxLearningSteps",
    "Verif.Props.C27_es"
   ],
   "note": "learn(k) and maxEvaluations as stated; a user-set maxLearningSteps=M performs M+1 steps, and noisy non-elitist ES announces too small a batch."
  },
  {
   "property": "C28",
   "status": "proved",
   "theorems": [
    "Verif.Props.C28_step",
    "Verif.Props.C28_run",
    "Verif.Props.C25_hillClimber"
   ],
   "note": "Evaluators not declared noisy; with noise the code re-evaluates and overwrites the best value by design."
  },
  {
   "property": "C29",
   "status": "partial",
   "theorems": [
    "Verif.Props.C29_topologyMutate",
    "Verif.Props.C29_terminates",
    "Verif.Props.C29_history",
    "Verif.Props.C29_params",
    "Verif.Props.C29_roundtrip",
    "Verif.Props.C29_write",
    "Verif.Props.C29_randomize",
    "Verif.Props.C29_negation_randomize",
    "Verif.Props.C29_negation_returnZeros"
   ],
   "note": "Holds for topologyMutate histories and returnZeros=False. randomize (also used by the constructor) may leave no parameter active, and with returnZeros=True reading and writing back is not the identity."
  },
  {
   "property": "C64",
   "status": "proved",
   "theorems": [
    "Verif.Props.C64_decrementAny"
   ],
   "note": ""
  },
  {
   "property": "C65",
   "status": "partial",
   "theorems": [
    "Verif.Props.C65_restore_partial",
    "Verif.Props.C65_negation_shared"
   ],
   "note": "Violated: the container is shared between copies. Proved: the original can restore itself from its own mask and values."
  },
  {
   "property": "C30",
   "status": "proved",
   "theorems": [
    "Verif.Props.C30_folds",
    "Verif.Props.C30_data",
    "Verif.Props.C30_result"
   ],
   "note": "For at least two folds and more samples than folds; n_folds=1 raises ValueError (concatenate of nothing), n_folds >= number of samples fails the assertion. Training and testing are an arbitrary function of the fold's data."
  },
  {
   "property": "C31",
   "status": "proved",
   "theorems": [
    "Verif.Props.C31_jobs",
    "Verif.Props.C31_search",
    "Verif.Props.C31_axis",
    "Verif.Props.C31_distinct"
   ],
   "note": "`linspace` gets a float step count, which current numpy rejects; modelled as the evident count. Random `_validate` included."
  },
  {
   "property": "C32",
   "status": "proved",
   "theorems": [
    "Verif.Props.C32_grid_bounds",
    "Verif.Props.C32_search"
   ],
   "note": "Exact arithmetic; `_validate` gives equal values for equal parameters (the library's subclass caches them)."
  },
  {
   "property": "C66",
   "status": "proved",
   "theorems": [
    "Verif.Props.C66_hitRate",
    "Verif.Props.C66_mse",
    "Verif.Props.C66_mse_plain"
   ],
   "note": ""
  },
  {
   "property": "C33",
   "status": "partial",
   "theorems": [
    "Verif.Props.C33_bookkeeping",
    "Verif.Props.C33_moves",
    "Verif.Props.C33_judgements",
    "Verif.Props.C33_negation_after_end"
   ],
   "note": "Holds for every undecided game, refused attempts included. Violated after the deciding move, which leaves the bookkeeping stale (negation)."
  },
  {
   "property": "C34",
   "status": "partial",
   "theorems": [
    "Verif.Props.C34_win",
    "Verif.Props.C34_refused",
    "Verif.Props.C34_no_five",
    "Verif.Props.C34_draw",
    "Verif.Props.C34_killing",
    "Verif.Props.C34_negation_refused_moves"
   ],
   "note": "Wins: every position. Draws: every history of accepted moves; violated once a move is refused, because refused attempts are counted (negation)."
  },
  {
   "property": "C35",
   "status": "proved",
   "theorems": [
    "Verif.Props.C35_move",
    "Verif.Props.C35_start",
    "Verif.Props.C35_bookkeeping",
    "Verif.Props.C35_killing"
   ],
   "note": "Every history of accepted moves in any order of colours; refused attempts are counted as moves as in C34."
  },
  {
   "property": "C36",
   "status": "partial",
   "theorems": [
    "Verif.Props.C36_action",
    "Verif.Props.C36_polar_action",
    "Verif.Props.C36_never_in_wall",
    "Verif.Props.C36_polar_never_in_wall",
    "Verif.Props.C36_index_free",
    "Verif.Props.C36_wraps",
    "Verif.Props.C36_reset",
    "Verif.Props.C36_turns",
    "Verif.Props.C36_sensors",
    "Verif.Props.C36_negation_open_border",
    "Verif.Props.C36_negation_turn_left"
   ],
   "note": "Proved for every maze surrounded by walls (as all of the library's are) and every action sequence. Violated for mazes with a free border cell (negative indices) and for the meaning of left and right (negations)."
  },
  {
   "property": "C37",
   "status": "partial",
   "theorems": [
    "Verif.Props.C37_injective_iff",
    "Verif.Props.C37_range_iff",
    "Verif.Props.C37_reward",
    "Verif.Props.C37_negation"
   ],
   "note": "Holds exactly for mazes at least as high as wide (or with a single row); violated otherwise (negation)."
  },
  {
   "property": "C38",
   "status": "partial",
   "theorems": [
    "Verif.Props.C38_game",
    "Verif.Props.C38_forced",
    "Verif.Props.C38_pairs",
    "Verif.Props.C38_negation_draw"
   ],
   "note": "Pairings, alternation of moves and forced legality proved; violated for draws, which are counted as won by the second player (negation)."
  },
  {
   "property": "C39",
   "status": "proved",
   "theorems": [
    "Verif.Props.C39_total",
    "Verif.Props.C39_pairing",
    "Verif.Props.C39_bound",
    "Verif.Props.C39_winner"
   ],
   "note": "Real arithmetic. Draws never reach eloScore, see C38."
  },
  {
   "property": "C40",
   "status": "partial",
   "theorems": [
    "Verif.Props.C40_bounds",
    "Verif.Props.C40_local",
    "Verif.Props.C40_updates",
    "Verif.Props.C40_fixed",
    "Verif.Props.C40_negation_online",
    "Verif.Props.C40_last_reward_ignored"
   ],
   "note": "Proved for batch mode (the default) of Q and SARSA, over any ordered field. With batchMode = False learn never changes anything (negation)."
  },
  {
   "property": "C67",
   "status": "partial",
   "theorems": [
    "Verif.Props.C67_bounds",
    "Verif.Props.C67_negation_fraction",
    "Verif.Props.C67_negation_boundary"
   ],
   "note": "Bounds proved for integer rewards; fractional rewards are truncated and sequence boundaries ignored (negations)."
  },
  {
   "property": "C41",
   "status": "proved",
   "theorems": [
    "Verif.Props.C41_collapsed",
    "Verif.Props.C41_greedy",
    "Verif.Props.C41_random",
    "Verif.Props.C41_values",
    "Verif.Props.C41_qvalues",
    "Verif.Props.C41_improvement",
    "Verif.Props.C41_near_optimal",
    "Verif.Props.C41_iteration"
   ],
   "note": "Real arithmetic, at least one action. Beyond the property: error bounds of the truncated sums, policy improvement and near-optimality of converged policy iteration. randomDeterministic is not modelled (it unpacks integers and raises TypeError)."
  },
  {
   "property": "C42",
   "status": "partial",
   "theorems": [
    "Verif.Props.C42_actions",
    "Verif.Props.C42_observations",
    "Verif.Props.C42_roundtrip",
    "Verif.Props.C42_negation_observation"
   ],
   "note": "Everything except that observations stay in [-1,1]: the clipped copy is thrown away (negation)."
  },
  {
   "property": "C43",
   "status": "partial",
   "theorems": [
    "Verif.Props.C43_protocol",
    "Verif.Props.C43_episodes",
    "Verif.Props.C43_no_logging",
    "Verif.Props.C43_negation_observe"
   ],
   "note": "Proved for every history of calls; getAction and giveReward out of order raise and record nothing, but integrateObservation never raises and drops a pending observation (negation)."
  },
  {
   "property": "C44",
   "status": "partial",
   "theorems": [
    "Verif.Props.C44_best_partial",
    "Verif.Props.C44_terminates",
    "Verif.Props.C44_stopping_rule",
    "Verif.Props.C44_negation_epochs",
    "Verif.Props.C44_negation_initial",
    "Verif.Props.C44_negation_resume"
   ],
   "note": "Best of the trained epochs is restored and the run terminates; violated: maxEpochs + 1 epochs are trained, the initial weights do not compete, and further training forgets the restored weights (negations)."
  },
  {
   "property": "C45",
   "status": "proved",
   "theorems": [
    "Verif.Props.C45_rprop",
    "Verif.Props.C45_adaptation"
   ],
   "note": "For an initial step size inside the bounds (as in the default settings)."
  },
  {
   "property": "C46",
   "status": "proved",
   "theorems": [
    "Verif.Props.C46_closed_form",
    "Verif.Props.C46_plain"
   ],
   "note": ""
  },
  {
   "property": "C68",
   "status": "partial",
   "theorems": [
    "Verif.Props.C68_total",
    "Verif.Props.C68_f",
    "Verif.Props.C68_returns",
    "Verif.Props.C68_negation_zero_discount"
   ],
   "note": "For tasks whose getReward has no side effect. A discount of 0 counts as none (negation); the first reward is already discounted once."
  },
  {
   "property": "C69",
   "status": "proved",
   "theorems": [
    "Verif.Props.C69_interactions",
    "Verif.Props.C69_episodes"
   ],
   "note": "For agents with logging on, observations and actions of the agent's dimensions, and tasks which are not finished directly after a reset (otherwise an empty sequence makes newEpisode raise)."
  },
  {
   "property": "C47",
   "status": "partial",
   "theorems": [
    "Verif.Props.C47_consistent",
    "Verif.Props.C47_remove_worst_partial",
    "Verif.Props.C47_sorted",
    "Verif.Props.C47_remove_absent",
    "Verif.Props.C47_negation_zero",
    "Verif.Props.C47_negation_absent_fitness"
   ],
   "note": "Proved for n >= 1 and histories that assign fitness to present individuals only; removeWorstIndividuals(0) removes everybody and a fitness for an absent individual makes set and table disagree (negations)."
  },
  {
   "property": "C48",
   "status": "partial",
   "theorems": [
    "Verif.Props.C48_knn",
    "Verif.Props.C48_best",
    "Verif.Props.C48_identical_partial",
    "Verif.Props.C48_wrong_size",
    "Verif.Props.C48_negation_raw"
   ],
   "note": "Any history, any permutations. Finding an identical item is proved for 0/1 queries; for other entries put and knn hash differently (negation)."
  },
  {
   "property": "C70",
   "status": "partial",
   "theorems": [
    "Verif.Props.C70_selection_partial",
    "Verif.Props.C70_reproduction",
    "Verif.Props.C70_generation",
    "Verif.Props.C70_burst",
    "Verif.Props.C70_negation_keep_all",
    "Verif.Props.C70_negation_diverges",
    "Verif.Props.C70_negation_small"
   ],
   "note": "Proved when fewer than all are kept and at least one survives; keeping everybody removes everybody, and with fewer than four members the default selection leaves nobody, after which reproduction never ends (negations)."
  },
  {
   "property": "C71",
   "status": "proved",
   "theorems": [
    "Verif.Props.C71_assembly",
    "Verif.Props.C71_fitness",
    "Verif.Props.C71_best",
    "Verif.Props.C71_negation_sizes"
   ],
   "note": "For sub-populations of equal size, as Evolino creates them (otherwise ValueError, negation shown)."
  },
  {
   "property": "C72",
   "status": "partial",
   "theorems": [
    "Verif.Props.C72_knn",
    "Verif.Props.C72_identical",
    "Verif.Props.C72_ball",
    "Verif.Props.C72_negation_high_dimension"
   ],
   "note": "Proved up to dimension 24; above, insert always raises because the projection matrix is multiplied from the wrong side (negation)."
  },
  {
   "property": "C50",
   "status": "partial",
   "theorems": [
    "Verif.Props.C50_windows_partial",
    "Verif.Props.C50_covered",
    "Verif.Props.C50_zero",
    "Verif.Props.C50_negation_single",
    "Verif.Props.C50_negation_multiple"
   ],
   "note": "The exact result is proved: the last sequence is never cut, and the last window is dropped when the length is a multiple of the window size (negations)."
  },
  {
   "property": "C73",
   "status": "partial",
   "theorems": [
    "Verif.Props.C73_minmax",
    "Verif.Props.C73_meanstd",
    "Verif.Props.C73_errors",
    "Verif.Props.C73_negation_save",
    "Verif.Props.C73_negation_mode"
   ],
   "note": "Normalisation proved over the reals; files written by save can never be loaded (negation)."
  },
  {
   "property": "C51",
   "status": "partial",
   "theorems": [
    "Verif.Props.C51_opposite",
    "Verif.Props.C51_involution",
    "Verif.Props.C51_translate_partial",
    "Verif.Props.C51_rotate_partial",
    "Verif.Props.C51_soft",
    "Verif.Props.C51_negation_desired",
    "Verif.Props.C51_negation_translate_base",
    "Verif.Props.C51_negation_translate_twice",
    "Verif.Props.C51_negation_rotate"
   ],
   "note": "The transformed values are proved; a missing desired value is not kept, translating moves the optimum reported by the base function too, and rotation reports a wrong optimum (negations)."
  },
  {
   "property": "C74",
   "status": "partial",
   "theorems": [
    "Verif.Props.C74_sphere",
    "Verif.Props.C74_cigar",
    "Verif.Props.C74_tablet",
    "Verif.Props.C74_elli",
    "Verif.Props.C74_sharpR",
    "Verif.Props.C74_diffPow",
    "Verif.Props.C74_rosenbrock",
    "Verif.Props.C74_glasmachers",
    "Verif.Props.C74_schwefel_partial",
    "Verif.Props.C74_boundedLinear_partial",
    "Verif.Props.C74_rastrigin",
    "Verif.Props.C74_weierstrass",
    "Verif.Props.C74_schaffers",
    "Verif.Props.C74_ackley",
    "Verif.Props.C74_griewank",
    "Verif.Props.C74_buche",
    "Verif.Props.C74_schwefel213",
    "Verif.Props.C74_katsuura",
    "Verif.Props.C74_negation_rosenbrock",
    "Verif.Props.C74_negation_schwefel",
    "Verif.Props.C74_negation_boundedLinear",
    "Verif.Props.C74_negation_weierstrass",
    "Verif.Props.C74_negation_buche",
    "Verif.Props.C74_negation_funnel",
    "Verif.Props.C74_negation_griewankRosenbrock",
    "Verif.Props.C74_negation_schwefel213",
    "Verif.Props.C74_negation_branin"
   ],
   "note": "Proved over the reals for the functions for which it holds; Schwefel, BoundedLinear, Funnel, GriewankRosenbrock, Schwefel 2.13 and Branin report a point that is not their (only) minimum, and two functions change their argument (negations). Step ellipsoid, attractive sector, Schwefel20, Gallagher and Lunacek are covered by C148."
  },
  {
   "property": "C75",
   "status": "proved",
   "theorems": [
    "Verif.Props.C75_build",
    "Verif.Props.C75_idempotent",
    "Verif.Props.C75_well_formed"
   ],
   "note": "For every history of construction calls; the built network satisfies the well-formedness hypotheses used by the propagation theorems."
  },
  {
   "property": "C52",
   "status": "partial",
   "theorems": [
    "Verif.Props.C52_chain_partial",
    "Verif.Props.C52_options",
    "Verif.Props.C52_errors",
    "Verif.Props.C52_negation_lstm_flat",
    "Verif.Props.C52_negation_lstm_deep"
   ],
   "note": "Proved for every list of sizes and options, except that LSTM hidden layers need exactly one hidden layer: with none an AttributeError is raised, with several the interpreter exits (negations). The compiled arac networks are not modelled."
  },
  {
   "property": "C49",
   "status": "partial",
   "theorems": [
    "Verif.Props.C49_roundtrip_partial",
    "Verif.Props.C49_negation_roles",
    "Verif.Props.C49_negation_unsorted",
    "Verif.Props.C49_negation_order",
    "Verif.Props.C49_negation_nested",
    "Verif.Props.C49_negation_stale",
    "Verif.Props.C49_negation_classes",
    "Verif.Props.C49_negation_mixture",
    "Verif.Props.C49_negation_permutation",
    "Verif.Props.C49_negation_forget"
   ],
   "note": "Proved for networks nested to any depth whose modules and connections are of the supported classes, that are sorted, have no module that is both input and output, and no clashing names. Negations: double roles, unsorted networks, parameter order, nested and stale names, Gaussian, mixture density, table, partial softmax, Kohonen and permutation classes, the forget flag. The XML text itself is modelled as a tree."
  },
  {
   "property": "C76",
   "status": "partial",
   "theorems": [
    "Verif.Props.C76_forward",
    "Verif.Props.C76_gradient",
    "Verif.Props.C76_library_partial",
    "Verif.Props.C76_negation_single",
    "Verif.Props.C76_negation_stale"
   ],
   "note": "Proved for every sequence after a reset; the library's own sigmoid needs gate inputs below 500 in absolute value, where it is clipped. Without reset a later shorter sequence reads stale errors, and a fresh or feed-forward layer raises in the backward pass (negations)."
  },
  {
   "property": "C77",
   "status": "partial",
   "theorems": [
    "Verif.Props.C77_interval",
    "Verif.Props.C77_probability",
    "Verif.Props.C77_refused",
    "Verif.Props.C77_tolerant",
    "Verif.Props.C77_gibbs",
    "Verif.Props.C77_gibbs_exact",
    "Verif.Props.C77_gibbs_order",
    "Verif.Props.C77_gibbs_zero",
    "Verif.Props.C77_negation_negative"
   ],
   "note": "Probabilities are Lebesgue measures of sets of random numbers. Arrays with negative entries are accepted (negation); the Gibbs weights are clipped 40 below the largest."
  },
  {
   "property": "C78",
   "status": "partial",
   "theorems": [
    "Verif.Props.C78_epsilon",
    "Verif.Props.C78_epsilon_run",
    "Verif.Props.C78_normal",
    "Verif.Props.C78_negation_sde"
   ],
   "note": "The backward pass of the state-dependent explorer raises whenever the state has more than one number (negation)."
  },
  {
   "property": "C79",
   "status": "partial",
   "theorems": [
    "Verif.Props.C79_select",
    "Verif.Props.C79_generation",
    "Verif.Props.C79_elitism",
    "Verif.Props.C79_bounds",
    "Verif.Props.C79_negation_small",
    "Verif.Props.C79_negation_all_elite"
   ],
   "note": "With fewer than two parents a ValueError is raised, and when everything is elite the population doubles (negations)."
  },
  {
   "property": "C80",
   "status": "partial",
   "theorems": [
    "Verif.Props.C80_init",
    "Verif.Props.C80_generation",
    "Verif.Props.C80_elitism",
    "Verif.Props.C80_noisy",
    "Verif.Props.C80_negation_budget",
    "Verif.Props.C80_negation_division"
   ],
   "note": "Proved with integer division; in Python 3 every learning step raises a TypeError, and a noisy strategy without elitism does more evaluations than batchSize (negations)."
  },
  {
   "property": "C81",
   "status": "partial",
   "theorems": [
    "Verif.Props.C81_best",
    "Verif.Props.C81_move",
    "Verif.Props.C81_neighbours",
    "Verif.Props.C81_start",
    "Verif.Props.C81_negation_social"
   ],
   "note": "The social attraction goes to the current (possibly just moved, unevaluated) position of the best neighbour instead of its best position (negation)."
  },
  {
   "property": "C82",
   "status": "partial",
   "theorems": [
    "Verif.Props.C82_derivs",
    "Verif.Props.C82_online",
    "Verif.Props.C82_batch",
    "Verif.Props.C82_rprop",
    "Verif.Props.C82_descent_unique",
    "Verif.Props.C82_test",
    "Verif.Props.C82_negation_batch_weightdecay",
    "Verif.Props.C82_negation_changed_parameters",
    "Verif.Props.C82_negation_mse"
   ],
   "note": "Steepest descent wherever the layers are differentiable (C14 says where). Weight decay is ignored in batch mode, changes made to the parameters between epochs are undone, and the value called MSE is half of it (negations). LSTM layers inside networks: C174."
  },
  {
   "property": "C83",
   "status": "partial",
   "theorems": [
    "Verif.Props.C83_least_squares",
    "Verif.Props.C83_exact_partial",
    "Verif.Props.C83_first_step",
    "Verif.Props.C83_spsa",
    "Verif.Props.C83_pgpe",
    "Verif.Props.C83_pgpe_adaptation",
    "Verif.Props.C83_pgpe_sigma",
    "Verif.Props.C83_rprop_spsa",
    "Verif.Props.C83_rprop_pgpe",
    "Verif.Props.C83_rprop_deviations",
    "Verif.Props.C83_rprop_fd_partial",
    "Verif.Props.C83_negation_minimize",
    "Verif.Props.C83_negation_offset",
    "Verif.Props.C83_negation_global",
    "Verif.Props.C83_negation_rprop_sigma"
   ],
   "note": "Proved for SPSA and for PGPE with local exploration. FiniteDifferences always climbs, also when it is to minimise, and fits without a constant term, so that even a constant objective moves it; PGPE with global exploration raises an AttributeError (negations). With rprop the standard deviations of PGPE can become negative, after which it raises (negation)."
  },
  {
   "property": "C84",
   "status": "partial",
   "theorems": [
    "Verif.Props.C84_score",
    "Verif.Props.C84_lockstep",
    "Verif.Props.C84_rows_partial",
    "Verif.Props.C84_learn",
    "Verif.Props.C84_reinforce",
    "Verif.Props.C84_baseline",
    "Verif.Props.C84_shift",
    "Verif.Props.C84_enac",
    "Verif.Props.C84_enac_least_squares",
    "Verif.Props.C84_rescale",
    "Verif.Props.C84_negation_rows",
    "Verif.Props.C84_negation_direction",
    "Verif.Props.C84_negation_rescale"
   ],
   "note": "The derivatives are never reset, so the stored rows are running sums over all earlier interactions; REINFORCE returns the negative estimate and so steps downhill; the size guard ignores large negative components (negations). Proved: the score, the lockstep of rewards and rows, the estimators as functions of the rows, and optimality of the baseline."
  },
  {
   "property": "C85",
   "status": "partial",
   "theorems": [
    "Verif.Props.C85_partition",
    "Verif.Props.C85_owner_partial",
    "Verif.Props.C85_weight",
    "Verif.Props.C85_succeeds",
    "Verif.Props.C85_restore",
    "Verif.Props.C85_write",
    "Verif.Props.C85_negation_slice",
    "Verif.Props.C85_negation_peepholes",
    "Verif.Props.C85_negation_gates",
    "Verif.Props.C85_negation_other"
   ],
   "note": "Proved for networks of full connections without slices. With slices weights are given to the wrong neurons; peephole LSTM layers, gate layers and other parametrised connections raise (negations). convertNormalNetwork is in C183."
  },
  {
   "property": "C86",
   "status": "partial",
   "theorems": [
    "Verif.Props.C86_sequences",
    "Verif.Props.C86_number",
    "Verif.Props.C86_class",
    "Verif.Props.C86_split_partial",
    "Verif.Props.C86_negation_last",
    "Verif.Props.C86_negation_unassigned",
    "Verif.Props.C86_negation_failed_removal"
   ],
   "note": "The last (open) sequence is never part of a stratified split; classes of samples added after assignClasses are missing; a failed removeSequence makes later addSample calls fail (negations). The 1-of-k representation is C187."
  },
  {
   "property": "C87",
   "status": "partial",
   "theorems": [
    "Verif.Props.C87_result",
    "Verif.Props.C87_refresh_partial",
    "Verif.Props.C87_density",
    "Verif.Props.C87_negation_single"
   ],
   "note": "With a single old point the result may contain no new point (negation). The mixture identity is per point; the early end of the first loop is described exactly by C87_result."
  },
  {
   "property": "C88",
   "status": "partial",
   "theorems": [
    "Verif.Props.C88_xnes_gaussian",
    "Verif.Props.C88_xnes_coordinates",
    "Verif.Props.C88_xnes_densities",
    "Verif.Props.C88_snes_stops",
    "Verif.Props.C88_xnes_step",
    "Verif.Props.C88_xnes_evaluations",
    "Verif.Props.C88_hansen",
    "Verif.Props.C88_xnes_coordinate_free",
    "Verif.Props.C88_xnes_rotation",
    "Verif.Props.C88_xnes_order",
    "Verif.Props.C88_xnes_uphill",
    "Verif.Props.C88_snes_gaussian",
    "Verif.Props.C88_snes_step",
    "Verif.Props.C88_snes_coordinate_free",
    "Verif.Props.C88_snes_scale",
    "Verif.Props.C88_snes_order",
    "Verif.Props.C88_snes_uphill",
    "Verif.Props.C88_negation_mixing",
    "Verif.Props.C88_negation_mixing_points"
   ],
   "note": "Proved in full without importance mixing. With it XNES raises in the second step unless all distributions are stored, and then tests fitnesses instead of points for reuse (negations)."
  },
  {
   "property": "C89",
   "status": "partial",
   "theorems": [
    "Verif.Props.C89_parameters",
    "Verif.Props.C89_recombination",
    "Verif.Props.C89_covariance",
    "Verif.Props.C89_distribution",
    "Verif.Props.C89_translation",
    "Verif.Props.C89_order",
    "Verif.Props.C89_stop",
    "Verif.Props.C89_negation_scale"
   ],
   "note": "The run depends on the scale of the coordinates, because the steps are not divided by the step size in the covariance update (negation). Orthonormal eigenvectors are a hypothesis of C89_distribution only."
  },
  {
   "property": "C90",
   "status": "partial",
   "theorems": [
    "Verif.Props.C90_pca",
    "Verif.Props.C90_reduceDim",
    "Verif.Props.C90_ppca_span",
    "Verif.Props.C90_ppca_fixpoint",
    "Verif.Props.C90_negation_none",
    "Verif.Props.C90_negation_column",
    "Verif.Props.C90_negation_order",
    "Verif.Props.C90_negation_ppca"
   ],
   "note": "Orthonormal eigenvectors from eig are a hypothesis. With dim = 0 all components are returned, data with one column raise, the components are not ordered by variance, and pPca returns directions that are neither orthogonal nor of length 1 (negations). Convergence of pPca is not proved, only what it converges to."
  },
  {
   "property": "C91",
   "status": "partial",
   "theorems": [
    "Verif.Props.C91_seeds",
    "Verif.Props.C91_distinct",
    "Verif.Props.C91_negation_zero"
   ],
   "note": "Proved for k of at least 1; for k = 0 one seed is returned (negation). The clustering itself is scipy's."
  },
  {
   "property": "C92",
   "status": "partial",
   "theorems": [
    "Verif.Props.C92_history",
    "Verif.Props.C92_prediction",
    "Verif.Props.C92_covariance",
    "Verif.Props.C92_more_data",
    "Verif.Props.C92_order",
    "Verif.Props.C92_draw",
    "Verif.Props.C92_negation_untrained",
    "Verif.Props.C92_negation_stale"
   ],
   "note": "Without samples the prediction has the wrong length and ignores the mean; draw uses outdated predictions after a change of the hyper parameters (negations). The option autonoise is in C182."
  },
  {
   "property": "C93",
   "status": "partial",
   "theorems": [
    "Verif.Props.C93_rate",
    "Verif.Props.C93_boltzmann",
    "Verif.Props.C93_q_tabular",
    "Verif.Props.C93_sarsa_tabular",
    "Verif.Props.C93_q_update",
    "Verif.Props.C93_qlambda_zero",
    "Verif.Props.C93_traces",
    "Verif.Props.C93_lspi",
    "Verif.Props.C93_lspi_lazy",
    "Verif.Props.C93_lstd",
    "Verif.Props.C93_gq",
    "Verif.Props.C93_gq_secondary",
    "Verif.Props.C93_negation_reset",
    "Verif.Props.C93_negation_boltzmann",
    "Verif.Props.C93_negation_lspi"
   ],
   "note": "reset keeps the reduced learning rate, values more than 20 temperatures below the best are not told apart, and LSPI by default starts from noise that it never removes (negations). LSTDQ is treated for a fixed policy; the exploration bonus of LSPI is modelled without a theorem on its effect."
  },
  {
   "property": "C94",
   "status": "partial",
   "theorems": [
    "Verif.Props.C94_first_episode",
    "Verif.Props.C94_decay_partial",
    "Verif.Props.C94_probabilities",
    "Verif.Props.C94_learn_online",
    "Verif.Props.C94_protocol",
    "Verif.Props.C94_negation_episodes",
    "Verif.Props.C94_negation_decay",
    "Verif.Props.C94_negation_batch",
    "Verif.Props.C94_negation_batch_next"
   ],
   "note": "True of the first episode only: later ones begin with an update across the boundary; the decay does not happen while learning online; batch learning starts with a wrong transition, or raises for SARSA and LSPI (negations)."
  },
  {
   "property": "C95",
   "status": "partial",
   "theorems": [
    "Verif.Props.C95_statistics",
    "Verif.Props.C95_projected",
    "Verif.Props.C95_exact",
    "Verif.Props.C95_lspi",
    "Verif.Props.C95_optimal",
    "Verif.Props.C95_negation_stateProp"
   ],
   "note": "stateProp samples the states in which transitions end instead of those in which they start (negation); otherwise proved. That lstsq returns a least-squares solution is a hypothesis."
  },
  {
   "property": "C96",
   "status": "partial",
   "theorems": [
    "Verif.Props.C96_samples",
    "Verif.Props.C96_fixpoint",
    "Verif.Props.C96_bounded",
    "Verif.Props.C96_inputs",
    "Verif.Props.C96_action",
    "Verif.Props.C96_negation_last"
   ],
   "note": "The last experience of each sequence, with its reward, is dropped (negation). The training itself is C44 and C82."
  },
  {
   "property": "C97",
   "status": "partial",
   "theorems": [
    "Verif.Props.C97_cheese",
    "Verif.Props.C97_cheese_walls",
    "Verif.Props.C97_slip_partial",
    "Verif.Props.C97_tmaze",
    "Verif.Props.C97_tmaze_memory",
    "Verif.Props.C97_tmaze_observation",
    "Verif.Props.C97_shuttle",
    "Verif.Props.C97_shuttle_backup",
    "Verif.Props.C97_shuttle_observation",
    "Verif.Props.C97_total",
    "Verif.Props.C97_tiger",
    "Verif.Props.C97_tiger_observation",
    "Verif.Props.C97_negation_slip",
    "Verif.Props.C97_negation_bad_spot",
    "Verif.Props.C97_negation_tmaze",
    "Verif.Props.C97_negation_shuttle_forward",
    "Verif.Props.C97_negation_shuttle_total",
    "Verif.Props.C97_negation_shuttle_black",
    "Verif.Props.C97_negation_tiger"
   ],
   "note": "North and east slip backwards in FourByThreeMaze and its bad spot does not exist; in TMaze the agent is given 4 for the wrong arm; Forward of ShuttleDocking only turns, backing into the wall is free, and the totals of ShuttleDocking and TigerTask stay 0 (negations)."
  },
  {
   "property": "C98",
   "status": "partial",
   "theorems": [
    "Verif.Props.C98_equations",
    "Verif.Props.C98_energy",
    "Verif.Props.C98_mirror",
    "Verif.Props.C98_shift",
    "Verif.Props.C98_rest",
    "Verif.Props.C98_negation_linear"
   ],
   "note": "Proved for the nonlinear environment. In the linearised one the position of the cart never changes without noise (negation). The error of the Runge-Kutta step is not estimated."
  },
  {
   "property": "C99",
   "status": "partial",
   "theorems": [
    "Verif.Props.C99_force",
    "Verif.Props.C99_length",
    "Verif.Props.C99_total",
    "Verif.Props.C99_mirror",
    "Verif.Props.C99_variants",
    "Verif.Props.C99_observe",
    "Verif.Props.C99_rbf",
    "Verif.Props.C99_negation_min",
    "Verif.Props.C99_negation_nonmarkov",
    "Verif.Props.C99_negation_nonmarkov_double",
    "Verif.Props.C99_negation_delayed",
    "Verif.Props.C99_negation_outdim",
    "Verif.Props.C99_negation_carts",
    "Verif.Props.C99_negation_cost"
   ],
   "note": "Proved for one pole with full observation. With two poles one fallen pole is not punished, rewards lag behind, the poles stand on different carts and BalanceTask cannot observe them; without velocities the wrong sensors decide; the linearised task rewards deviation (negations)."
  },
  {
   "property": "C100",
   "status": "partial",
   "theorems": [
    "Verif.Props.C100_episode",
    "Verif.Props.C100_bounds",
    "Verif.Props.C100_negation_total",
    "Verif.Props.C100_negation_rewards"
   ],
   "note": "Totals are not those of the episode, because reset keeps them, and the reward for reaching the goal is told three times but counted once (negations)."
  },
  {
   "property": "C101",
   "status": "partial",
   "theorems": [
    "Verif.Props.C101_ranges",
    "Verif.Props.C101_mirror",
    "Verif.Props.C101_rest",
    "Verif.Props.C101_negation_energy",
    "Verif.Props.C101_negation_height",
    "Verif.Props.C101_negation_observation"
   ],
   "note": "A sign in the accelerations violates conservation of energy, the height of the tip is computed from a wrong angle, and SingleArmSwinger does not show the angle of the arm (negations). The course of episodes is C100_episode."
  },
  {
   "property": "C102",
   "status": "partial",
   "theorems": [
    "Verif.Props.C102_interactions",
    "Verif.Props.C102_stochastic",
    "Verif.Props.C102_chain",
    "Verif.Props.C102_chain_total",
    "Verif.Props.C102_negation_division",
    "Verif.Props.C102_negation_reset",
    "Verif.Props.C102_negation_discount",
    "Verif.Props.C102_negation_draws"
   ],
   "note": "Proved with integer division; in Python 3 every action raises. Resetting raises, discounts are ignored, and totals and rewards use different random numbers (negations)."
  },
  {
   "property": "C103",
   "status": "partial",
   "theorems": [
    "Verif.Props.C103_ranges",
    "Verif.Props.C103_actions",
    "Verif.Props.C103_steering",
    "Verif.Props.C103_episode",
    "Verif.Props.C103_negation_length",
    "Verif.Props.C103_negation_drag"
   ],
   "note": "setMaxLength breaks the bound of 100, and the drag pushes the ship on headings west of north (negations)."
  },
  {
   "property": "C104",
   "status": "partial",
   "theorems": [
    "Verif.Props.C104_score",
    "Verif.Props.C104_capture_ends",
    "Verif.Props.C104_gomoku_ends",
    "Verif.Props.C104_capture_task",
    "Verif.Props.C104_gomoku_task",
    "Verif.Props.C104_negation_pass"
   ],
   "note": "Players who insist on occupied points can keep a game from ending (negation). PenteTask is covered by C104_score."
  },
  {
   "property": "C105",
   "status": "partial",
   "theorems": [
    "Verif.Props.C105_evaluation",
    "Verif.Props.C105_levels",
    "Verif.Props.C105_range",
    "Verif.Props.C105_stones",
    "Verif.Props.C105_full_line",
    "Verif.Props.C105_negation_scale",
    "Verif.Props.C105_negation_decrease",
    "Verif.Props.C105_negation_score",
    "Verif.Props.C105_negation_settings"
   ],
   "note": "The handicap is never lowered from 1 to 0, so such players use up all games; a player who loses all games gets less than -1; the score is not the documented one; minEvals = 0 or maxGames = 0 raise (negations)."
  },
  {
   "property": "C106",
   "status": "partial",
   "theorems": [
    "Verif.Props.C106_positions",
    "Verif.Props.C106_cycle",
    "Verif.Props.C106_score",
    "Verif.Props.C106_gomoku_partial",
    "Verif.Props.C106_negation_default",
    "Verif.Props.C106_negation_antisymmetric",
    "Verif.Props.C106_negation_noise",
    "Verif.Props.C106_negation_small",
    "Verif.Props.C106_negation_tiny",
    "Verif.Props.C106_negation_draw"
   ],
   "note": "By default a single game is played on boards of size 5 or more, the score is not anti-symmetric, shares of random moves are left over from the last evaluation, first stones are not used in cycles of length 1, boards of size 2 raise, and draws in Go-Moku count as defeats (negations)."
  },
  {
   "property": "C107",
   "status": "partial",
   "theorems": [
    "Verif.Props.C107_view",
    "Verif.Props.C107_slice",
    "Verif.Props.C107_negation_nested",
    "Verif.Props.C107_negation_bounds",
    "Verif.Props.C107_negation_remainder"
   ],
   "note": "Slices of slices raise an AttributeError, upper bounds are not checked, remainders are silently left out of views (negations)."
  },
  {
   "property": "C108",
   "status": "proved",
   "theorems": [
    "Verif.Props.C108_build",
    "Verif.Props.C108_output",
    "Verif.Props.C108_mirror",
    "Verif.Props.C108_transpose",
    "Verif.Props.C108_reach",
    "Verif.Props.C108_refused"
   ],
   "note": "BorderSwipingNetwork is not modelled."
  },
  {
   "property": "C109",
   "status": "partial",
   "theorems": [
    "Verif.Props.C109_output",
    "Verif.Props.C109_reversal",
    "Verif.Props.C109_causal",
    "Verif.Props.C109_negation_length"
   ],
   "note": "Sequences of length 1 are refused (negation)."
  },
  {
   "property": "C110",
   "status": "partial",
   "theorems": [
    "Verif.Props.C110_output",
    "Verif.Props.C110_translation",
    "Verif.Props.C110_negation_full",
    "Verif.Props.C110_negation_large"
   ],
   "note": "A window as large as the input cannot be built; much larger windows are accepted and give constant outputs (negations)."
  },
  {
   "property": "C111",
   "status": "partial",
   "theorems": [
    "Verif.Props.C111_output",
    "Verif.Props.C111_local",
    "Verif.Props.C111_negation_one",
    "Verif.Props.C111_negation_board"
   ],
   "note": "Windows or boards of one cell raise exceptions (negations)."
  },
  {
   "property": "C112",
   "status": "partial",
   "theorems": [
    "Verif.Props.C112_forward",
    "Verif.Props.C112_backward",
    "Verif.Props.C112_library_partial",
    "Verif.Props.C112_lstm",
    "Verif.Props.C112_slices"
   ],
   "note": "Forward and backward pass for any transfer functions; the library's sigmoid meets the smoothness condition below its clipping bound 500 only."
  },
  {
   "property": "C113",
   "status": "partial",
   "theorems": [
    "Verif.Props.C113_refused",
    "Verif.Props.C113_links",
    "Verif.Props.C113_incoming",
    "Verif.Props.C113_negation_merged",
    "Verif.Props.C113_negation_dims"
   ],
   "note": "False as stated: at the border where a swipe ends, both states arrive in the first block; only two dimensions work. The exact links are proved."
  },
  {
   "property": "C114",
   "status": "partial",
   "theorems": [
    "Verif.Props.C114_activate",
    "Verif.Props.C114_invert_partial",
    "Verif.Props.C114_negation_invert",
    "Verif.Props.C114_twice"
   ],
   "note": "The inverse does not transpose the weights; true only with one visible or one hidden unit."
  },
  {
   "property": "C115",
   "status": "partial",
   "theorems": [
    "Verif.Props.C115_training",
    "Verif.Props.C115_training_partial",
    "Verif.Props.C115_negation_wiring",
    "Verif.Props.C115_sampler"
   ],
   "note": "Exact description for all machines; it is contrastive divergence only with one visible or one hidden unit, otherwise updates are applied to other weights."
  },
  {
   "property": "C116",
   "status": "partial",
   "theorems": [
    "Verif.Props.C116_negation_bernoulli"
   ],
   "note": "The probability is the complement (negation)."
  },
  {
   "property": "C117",
   "status": "partial",
   "theorems": [
    "Verif.Props.C117_negation_train"
   ],
   "note": "Training always raises an exception (negation)."
  },
  {
   "property": "C118",
   "status": "proved",
   "theorems": [
    "Verif.Props.C118_extrapolate",
    "Verif.Props.C118_empty",
    "Verif.Props.C118_washout",
    "Verif.Props.C118_teacher"
   ],
   "note": "For any content of the buffers and any offsets; transfer functions of the LSTM layer are arbitrary."
  },
  {
   "property": "C119",
   "status": "partial",
   "theorems": [
    "Verif.Props.C119_chromosome",
    "Verif.Props.C119_set_get",
    "Verif.Props.C119_get_set",
    "Verif.Props.C119_short",
    "Verif.Props.C119_negation_wrapper"
   ],
   "note": "Proved for EvolinoNetwork; NetworkWrapper leaves weights out (negation)."
  },
  {
   "property": "C120",
   "status": "partial",
   "theorems": [
    "Verif.Props.C120_evaluation",
    "Verif.Props.C120_negation_short",
    "Verif.Props.C120_negation_default"
   ],
   "note": "The pseudo-inverse is an argument with the Penrose conditions. Sequences that are too short, and the default wtRatio, raise exceptions (negations)."
  },
  {
   "property": "C121",
   "status": "proved",
   "theorems": [
    "Verif.Props.C121_bursts",
    "Verif.Props.C121_never"
   ],
   "note": ""
  },
  {
   "property": "C122",
   "status": "partial",
   "theorems": [
    "Verif.Props.C122_generation",
    "Verif.Props.C122_progress",
    "Verif.Props.C122_constrained",
    "Verif.Props.C122_negation_direction",
    "Verif.Props.C122_negation_elitism",
    "Verif.Props.C122_negation_bounds",
    "Verif.Props.C122_negation_constraints",
    "Verif.Props.C122_negation_elite",
    "Verif.Props.C122_negation_crowd"
   ],
   "note": "The front is exact, but in the opposite direction; constraints are ignored when minimising; no elitism and the default bounds of the library's functions raise exceptions (negations). Progress only while fronts fit into the parents."
  },
  {
   "property": "C123",
   "status": "partial",
   "theorems": [
    "Verif.Props.C123_sch",
    "Verif.Props.C123_fon",
    "Verif.Props.C123_deb",
    "Verif.Props.C123_constDeb",
    "Verif.Props.C123_bnh",
    "Verif.Props.C123_srn",
    "Verif.Props.C123_unbounded",
    "Verif.Props.C123_osy_partial",
    "Verif.Props.C123_negation_violation",
    "Verif.Props.C123_negation_osy"
   ],
   "note": "Exact Pareto sets for five functions, sufficient condition for ConstSrn, a necessary condition for ConstOsy; Pol is not covered. The order of violations is wrong, and one constraint of ConstOsy is not the published one (negations)."
  },
  {
   "property": "C124",
   "status": "partial",
   "theorems": [
    "Verif.Props.C124_energy",
    "Verif.Props.C124_symmetry",
    "Verif.Props.C124_bound",
    "Verif.Props.C124_strict",
    "Verif.Props.C124_table",
    "Verif.Props.C124_table_five_six",
    "Verif.Props.C124_table_monotone",
    "Verif.Props.C124_negation_large"
   ],
   "note": "Minima are exact for up to four atoms and reached for five and six (that the other entries are minimal is open mathematics); above 110 atoms there is no desired value (negation)."
  },
  {
   "property": "C125",
   "status": "partial",
   "theorems": [
    "Verif.Props.C125_forward",
    "Verif.Props.C125_gradient",
    "Verif.Props.C125_accumulate",
    "Verif.Props.C125_once",
    "Verif.Props.C125_state",
    "Verif.Props.C125_negation_accumulate",
    "Verif.Props.C125_negation_disabled",
    "Verif.Props.C125_negation_separate"
   ],
   "note": "Exact gradients for one sample; accumulation, disabled layers and separate sigmas are wrong (negations)."
  },
  {
   "property": "C126",
   "status": "partial",
   "theorems": [
    "Verif.Props.C126_layer",
    "Verif.Props.C126_error",
    "Verif.Props.C126_coefficients",
    "Verif.Props.C126_means",
    "Verif.Props.C126_negation_density",
    "Verif.Props.C126_negation_deviations"
   ],
   "note": "The error is right for targets of one dimension only; the gradient for standard deviations lacks a factor (negations)."
  },
  {
   "property": "C127",
   "status": "partial",
   "theorems": [
    "Verif.Props.C127_negation_partial"
   ],
   "note": "The normalised values are thrown away (negation)."
  },
  {
   "property": "C128",
   "status": "partial",
   "theorems": [
    "Verif.Props.C128_winner",
    "Verif.Props.C128_train",
    "Verif.Props.C128_range",
    "Verif.Props.C128_repeat",
    "Verif.Props.C128_negation_full"
   ],
   "note": "With outputFullMap nothing is written (negation)."
  },
  {
   "property": "C129",
   "status": "partial",
   "theorems": [
    "Verif.Props.C129_killing",
    "Verif.Props.C129_careful",
    "Verif.Props.C129_end",
    "Verif.Props.C129_alternate",
    "Verif.Props.C129_deadlock",
    "Verif.Props.C129_input",
    "Verif.Props.C129_greedy",
    "Verif.Props.C129_gibbs_partial",
    "Verif.Props.C129_negation_endless",
    "Verif.Props.C129_negation_gibbs",
    "Verif.Props.C129_negation_wide",
    "Verif.Props.C129_negation_tall"
   ],
   "note": "Proved for the rule-based players. Deciding players can draw illegal positions with a tiny probability; without suicide a game on one point never ends; Go-Moku players need square boards (negations)."
  },
  {
   "property": "C130",
   "status": "partial",
   "theorems": [
    "Verif.Props.C130_libsvm",
    "Verif.Props.C130_roundtrip",
    "Verif.Props.C130_svm",
    "Verif.Props.C130_raw",
    "Verif.Props.C130_negation_label",
    "Verif.Props.C130_negation_order",
    "Verif.Props.C130_negation_blank",
    "Verif.Props.C130_negation_reload",
    "Verif.Props.C130_negation_classes",
    "Verif.Props.C130_negation_targets"
   ],
   "note": "Proved for files with increasing features. Lines without features, features out of order, blank lines, a second file, the number of classes and missing targets are not handled (negations)."
  },
  {
   "property": "C131",
   "status": "partial",
   "theorems": [
    "Verif.Props.C131_stateless",
    "Verif.Props.C131_episodes",
    "Verif.Props.C131_negation_history",
    "Verif.Props.C131_negation_derivs"
   ],
   "note": "Proved for modules without memory, and for modules used one after the other from a reset on. Histories and derivatives are shared between copies (negations)."
  },
  {
   "property": "C132",
   "status": "partial",
   "theorems": [
    "Verif.Props.C132_values",
    "Verif.Props.C132_missing",
    "Verif.Props.C132_contradiction",
    "Verif.Props.C132_negation_unknown"
   ],
   "note": "Unknown arguments are ignored (negation)."
  },
  {
   "property": "C133",
   "status": "partial",
   "theorems": [
    "Verif.Props.C133_memetic",
    "Verif.Props.C133_inverse_partial",
    "Verif.Props.C133_exception_partial",
    "Verif.Props.C133_budget",
    "Verif.Props.C133_negation_masks",
    "Verif.Props.C133_negation_exception",
    "Verif.Props.C133_negation_budget"
   ],
   "note": "Inverse searches do not change masks of MaskedParameters and leave the operators exchanged after an exception; with a noisy evaluator the limit is exceeded (negations)."
  },
  {
   "property": "C134",
   "status": "partial",
   "theorems": [
    "Verif.Props.C134_mse_partial",
    "Verif.Props.C134_importance",
    "Verif.Props.C134_default",
    "Verif.Props.C134_scale",
    "Verif.Props.C134_repeat",
    "Verif.Props.C134_sequences",
    "Verif.Props.C134_order",
    "Verif.Props.C134_zero",
    "Verif.Props.C134_sums",
    "Verif.Props.C134_negation_mse",
    "Verif.Props.C134_negation_history"
   ],
   "note": "Half the mean squared error is returned, and recurrent modules are not reset between the samples of a SupervisedDataSet (negations)."
  },
  {
   "property": "C135",
   "status": "partial",
   "theorems": [
    "Verif.Props.C135_plain",
    "Verif.Props.C135_early",
    "Verif.Props.C135_negation_max",
    "Verif.Props.C135_negation_default",
    "Verif.Props.C135_negation_validation",
    "Verif.Props.C135_negation_classifier",
    "Verif.Props.C135_negation_saved",
    "Verif.Props.C135_negation_unsaved"
   ],
   "note": "The maximal number of epochs is exceeded, the default ends the training after the first check, validation can fail and the saved curve lacks the last check (negations)."
  },
  {
   "property": "C136",
   "status": "partial",
   "theorems": [
    "Verif.Props.C136_distribution",
    "Verif.Props.C136_update",
    "Verif.Props.C136_start",
    "Verif.Props.C136_units",
    "Verif.Props.C136_negation_start",
    "Verif.Props.C136_negation_shift",
    "Verif.Props.C136_negation_diagonal"
   ],
   "note": "Proved for full covariances; the initial point and the anticipated mean shift have no effect, and diagonalOnly mixes deviations with variances (negations). Elitism, the one-fifth rule and adaptive shaping are in C180."
  },
  {
   "property": "C137",
   "status": "partial",
   "theorems": [
    "Verif.Props.C137_derivatives",
    "Verif.Props.C137_natural",
    "Verif.Props.C137_natural_center",
    "Verif.Props.C137_baseline",
    "Verif.Props.C137_offset",
    "Verif.Props.C137_uniform",
    "Verif.Props.C137_batch",
    "Verif.Props.C137_factor",
    "Verif.Props.C137_pdf",
    "Verif.Props.C137_negation_batch",
    "Verif.Props.C137_negation_pdf",
    "Verif.Props.C137_negation_start"
   ],
   "note": "The update of VES is not divided by the size of the batch, the determinant and with it the densities can become negative, and the initial point is ignored (negations). Vanilla scaling, momentum, elitism and online learning are in C181."
  },
  {
   "property": "C138",
   "status": "partial",
   "theorems": [
    "Verif.Props.C138_samples",
    "Verif.Props.C138_natural",
    "Verif.Props.C138_center",
    "Verif.Props.C138_length",
    "Verif.Props.C138_negation_settings",
    "Verif.Props.C138_negation_one",
    "Verif.Props.C138_negation_variance"
   ],
   "note": "Settings are overwritten, one dimension fails, and the stopping criterion does not use the largest variance (negations)."
  },
  {
   "property": "C139",
   "status": "partial",
   "theorems": [
    "Verif.Props.C139_data",
    "Verif.Props.C139_temperature",
    "Verif.Props.C139_stays_positive_partial",
    "Verif.Props.C139_units",
    "Verif.Props.C139_negation_temperature",
    "Verif.Props.C139_negation_equal",
    "Verif.Props.C139_negation_empty",
    "Verif.Props.C139_negation_learn",
    "Verif.Props.C139_negation_momentum"
   ],
   "note": "The data of a batch and the adaptation of the temperature are as documented for minimal rewards that are not negative; learn always fails on a missing attribute, the momentum is used as decay of the learning rate, negative minimal rewards can make the temperature negative, and empty episodes and batches without reward fail (negations)."
  },
  {
   "property": "C140",
   "status": "partial",
   "theorems": [
    "Verif.Props.C140_memoize",
    "Verif.Props.C140_percent",
    "Verif.Props.C140_found",
    "Verif.Props.C140_utest",
    "Verif.Props.C140_matching",
    "Verif.Props.C140_sub",
    "Verif.Props.C140_names",
    "Verif.Props.C140_negation_equal",
    "Verif.Props.C140_negation_unhashable",
    "Verif.Props.C140_negation_percent",
    "Verif.Props.C140_negation_utest",
    "Verif.Props.C140_negation_names"
   ],
   "note": "Equal arguments of different types and arguments that cannot be hashed are not handled by memoize, the percentage can exceed 100, the U-test answers the opposite question, and copies share names (negations)."
  },
  {
   "property": "C141",
   "status": "partial",
   "theorems": [
    "Verif.Props.C141_orthogonal",
    "Verif.Props.C141_blocks_partial",
    "Verif.Props.C141_binary_partial",
    "Verif.Props.C141_negation_blocks",
    "Verif.Props.C141_negation_binary",
    "Verif.Props.C141_negation_linscale"
   ],
   "note": "Blocks are right for square results, numbers for multiples of eight digits; linscale does not divide by the range of the data (negations)."
  },
  {
   "property": "C142",
   "status": "partial",
   "theorems": [
    "Verif.Props.C142_table",
    "Verif.Props.C142_density",
    "Verif.Props.C142_invariant",
    "Verif.Props.C142_draw",
    "Verif.Props.C142_means",
    "Verif.Props.C142_pure_partial",
    "Verif.Props.C142_negation_initial",
    "Verif.Props.C142_negation_single"
   ],
   "note": "In mogpuremax.py the weights are normalised only from the first learning step on, and a single Gaussian cannot be constructed (negations)."
  },
  {
   "property": "C143",
   "status": "partial",
   "theorems": [
    "Verif.Props.C143_gradient",
    "Verif.Props.C143_shift",
    "Verif.Props.C143_leave_one_out",
    "Verif.Props.C143_empty",
    "Verif.Props.C143_negation_single",
    "Verif.Props.C143_negation_optimal",
    "Verif.Props.C143_negation_nan"
   ],
   "note": "The baseline is the average reward of the time step, not the one of smallest variance; the gradient of a single episode is zero; sums of derivatives that vanish give nan (negations)."
  },
  {
   "property": "C144",
   "status": "proved",
   "theorems": [
    "Verif.Props.C144_inverse",
    "Verif.Props.C144_information",
    "Verif.Props.C144_blocks"
   ],
   "note": "Matrix inversion is exact; the expectation is any linear functional with the moments of the standard normal distribution."
  },
  {
   "property": "C145",
   "status": "partial",
   "theorems": [
    "Verif.Props.C145_range",
    "Verif.Props.C145_exact",
    "Verif.Props.C145_adapt",
    "Verif.Props.C145_negation_single",
    "Verif.Props.C145_negation_increase"
   ],
   "note": "With batches of one the number of evaluations grows without noise, and the first increase has no effect (negations)."
  },
  {
   "property": "C146",
   "status": "partial",
   "theorems": [
    "Verif.Props.C146_leftordered",
    "Verif.Props.C146_canonical",
    "Verif.Props.C146_idempotent",
    "Verif.Props.C146_generate",
    "Verif.Props.C146_probability",
    "Verif.Props.C146_negation_shape",
    "Verif.Props.C146_negation_expected"
   ],
   "note": "Matrices without columns lose their shape, and the cutoff makes the expected number of columns smaller than documented (negations)."
  },
  {
   "property": "C147",
   "status": "partial",
   "theorems": [
    "Verif.Props.C147_minimum_partial",
    "Verif.Props.C147_oscillate",
    "Verif.Props.C147_noise",
    "Verif.Props.C147_conditioning",
    "Verif.Props.C147_asymmetry",
    "Verif.Props.C147_negation_rosenbrock",
    "Verif.Props.C147_negation_sign",
    "Verif.Props.C147_negation_one",
    "Verif.Props.C147_negation_penalized"
   ],
   "note": "The minimum is proved for all combinations without oscillation and for the ellipsoid and discus functions with oscillation; with Rosenbrock's function the reported optimum is wrong, oscillation loses signs, one dimension fails, and penalized functions are penalized twice (negations)."
  },
  {
   "property": "C148",
   "status": "partial",
   "theorems": [
    "Verif.Props.C148_step",
    "Verif.Props.C148_sector",
    "Verif.Props.C148_gallagher",
    "Verif.Props.C148_lunacek",
    "Verif.Props.C148_negation_step",
    "Verif.Props.C148_negation_sector",
    "Verif.Props.C148_negation_gallagher",
    "Verif.Props.C148_negation_lunacek",
    "Verif.Props.C148_negation_schwefel"
   ],
   "note": "The minima are proved, but the reported optima are wrong for the sector, Gallagher and Lunacek functions, and Schwefel's function has values below -400 (negations)."
  },
  {
   "property": "C149",
   "status": "partial",
   "theorems": [
    "Verif.Props.C149_episode",
    "Verif.Props.C149_negation_reading",
    "Verif.Props.C149_negation_lost",
    "Verif.Props.C149_negation_noise",
    "Verif.Props.C149_negation_total",
    "Verif.Props.C149_negation_finished"
   ],
   "note": "The episode is proved; reading changes the state, actions can get lost, noise stays in the state, the fitness is not the sum of the rewards, and asking for the end is not repeatable (negations)."
  },
  {
   "property": "C150",
   "status": "partial",
   "theorems": [
    "Verif.Props.C150_queue",
    "Verif.Props.C150_considered_partial",
    "Verif.Props.C150_negation_first",
    "Verif.Props.C150_negation_last"
   ],
   "note": "The contents of the window are proved; the first episodes are considered less often than documented, and the last one never (negations)."
  },
  {
   "property": "C151",
   "status": "partial",
   "theorems": [
    "Verif.Props.C151_found_partial",
    "Verif.Props.C151_negation_gap",
    "Verif.Props.C151_negation_time"
   ],
   "note": "The solution is found if there are programs of every complexity before it and they terminate; the time limit is not implemented and gaps end in a KeyError (negations)."
  },
  {
   "property": "C152",
   "status": "partial",
   "theorems": [
    "Verif.Props.C152_build",
    "Verif.Props.C152_output",
    "Verif.Props.C152_mirror_partial",
    "Verif.Props.C152_transpose",
    "Verif.Props.C152_extrapolate",
    "Verif.Props.C152_negation_mirror",
    "Verif.Props.C152_negation_transpose",
    "Verif.Props.C152_negation_directions",
    "Verif.Props.C152_negation_options"
   ],
   "note": "Output and symmetries on boards are proved; mirror images differ without symmetric dimensions, dimensions differ from three on, asymmetric directions are not refused, and two options of the capture game network fail (negations)."
  },
  {
   "property": "C153",
   "status": "partial",
   "theorems": [
    "Verif.Props.C153_range",
    "Verif.Props.C153_grid",
    "Verif.Props.C153_doe",
    "Verif.Props.C153_windows",
    "Verif.Props.C153_negation_best",
    "Verif.Props.C153_negation_reuse"
   ],
   "note": "The search by design of experiments is proved to return the best evaluated point; the plain grid search returns parameters that do not depend on where the accuracy is best, and the claimed reuse of five points fails on sides of the window (negations)."
  },
  {
   "property": "C154",
   "status": "partial",
   "theorems": [
    "Verif.Props.C154_session",
    "Verif.Props.C154_cycles",
    "Verif.Props.C154_statistics",
    "Verif.Props.C154_resume",
    "Verif.Props.C154_negation_first",
    "Verif.Props.C154_negation_empty",
    "Verif.Props.C154_negation_prefix"
   ],
   "note": "The protocol, statistics and resuming are proved; the first cycle is one episode short, the learner sees an additional empty episode, and agents whose name is continued by another one are skipped (negations)."
  },
  {
   "property": "C155",
   "status": "partial",
   "theorems": [
    "Verif.Props.C155_commands",
    "Verif.Props.C155_protocol",
    "Verif.Props.C155_controller",
    "Verif.Props.C155_negation_waypoint",
    "Verif.Props.C155_negation_scores"
   ],
   "note": "Commands and protocol are proved; reaching a waypoint raises, and nobody ever scores (negations)."
  },
  {
   "property": "C156",
   "status": "partial",
   "theorems": [
    "Verif.Props.C156_files",
    "Verif.Props.C156_select",
    "Verif.Props.C156_dict_partial",
    "Verif.Props.C156_serial",
    "Verif.Props.C156_negation_extension",
    "Verif.Props.C156_negation_some",
    "Verif.Props.C156_negation_crash",
    "Verif.Props.C156_negation_text",
    "Verif.Props.C156_negation_race"
   ],
   "note": "Proved for non-empty extensions, and for dictionary files without crashes, concurrency and text files; each of these loses data (negations)."
  },
  {
   "property": "C157",
   "status": "partial",
   "theorems": [
    "Verif.Props.C157_attributes",
    "Verif.Props.C157_find",
    "Verif.Props.C157_named_partial",
    "Verif.Props.C157_negation_named",
    "Verif.Props.C157_negation_list",
    "Verif.Props.C157_negation_single"
   ],
   "note": "Attributes and nodes are proved; nodes without a name raise, and numbers are never read back correctly, since the first character is lost and the commas are not removed (negations)."
  },
  {
   "property": "C158",
   "status": "partial",
   "theorems": [
    "Verif.Props.C158_parameters_partial",
    "Verif.Props.C158_directions",
    "Verif.Props.C158_place",
    "Verif.Props.C158_negation_parameters"
   ],
   "note": "The permutations are proved; the division of the parameters is correct for one time dimension only and overlaps for more (negation)."
  },
  {
   "property": "C159",
   "status": "partial",
   "theorems": [
    "Verif.Props.C159_manipulate",
    "Verif.Props.C159_randomize",
    "Verif.Props.C159_subs",
    "Verif.Props.C159_identity",
    "Verif.Props.C159_copy",
    "Verif.Props.C159_cauchy",
    "Verif.Props.C159_uniform",
    "Verif.Props.C159_negation_main"
   ],
   "note": "Proved for sub-individuals; filters applied to main individuals have no effect, because their genome is a copy (negation)."
  },
  {
   "property": "C160",
   "status": "partial",
   "theorems": [
    "Verif.Props.C160_clients",
    "Verif.Props.C160_data_partial",
    "Verif.Props.C160_negation_arrays",
    "Verif.Props.C160_negation_long",
    "Verif.Props.C160_negation_quit"
   ],
   "note": "The list of clients and short nested lists are proved; arrays and long data are never received, and clients that quit are served for arbitrarily many rounds (negations)."
  },
  {
   "property": "C161",
   "status": "partial",
   "theorems": [
    "Verif.Props.C161_continuous",
    "Verif.Props.C161_repeated",
    "Verif.Props.C161_explore",
    "Verif.Props.C161_switch",
    "Verif.Props.C161_negation_stale"
   ],
   "note": "Proved, except that an episode that begins with learning switched off keeps the perturbation of an earlier one (negation)."
  },
  {
   "property": "C162",
   "status": "partial",
   "theorems": [
    "Verif.Props.C162_book",
    "Verif.Props.C162_tournament",
    "Verif.Props.C162_beats",
    "Verif.Props.C162_start",
    "Verif.Props.C162_generation",
    "Verif.Props.C162_reproduction",
    "Verif.Props.C162_learn",
    "Verif.Props.C162_terminates",
    "Verif.Props.C162_negation_average",
    "Verif.Props.C162_negation_elitism",
    "Verif.Props.C162_negation_empty",
    "Verif.Props.C162_negation_single"
   ],
   "note": "Averaging with parents has no effect without elitism and changes the elite with it; too small a budget raises an IndexError; a single player is evaluated for ever (negations). Evaluation with shared sampling is covered by C163 only. The package cannot be imported at this commit; the classes are modelled as written."
  },
  {
   "property": "C163",
   "status": "partial",
   "theorems": [
    "Verif.Props.C163_sampling",
    "Verif.Props.C163_global",
    "Verif.Props.C163_sharing",
    "Verif.Props.C163_negation_sampling",
    "Verif.Props.C163_negation_too_few",
    "Verif.Props.C163_negation_draws",
    "Verif.Props.C163_negation_global"
   ],
   "note": "Coevolution samples relative to players that have not met; asking for too many players raises; draws count as games not played, and the global score counts repeated opponents several times over (negations). Generations with several populations are covered by C176 and C177."
  },
  {
   "property": "C164",
   "status": "partial",
   "theorems": [
    "Verif.Props.C164_navigation",
    "Verif.Props.C164_new",
    "Verif.Props.C164_write",
    "Verif.Props.C164_negation_name",
    "Verif.Props.C164_negation_bare",
    "Verif.Props.C164_negation_escape",
    "Verif.Props.C164_negation_find"
   ],
   "note": "Tags without attributes and subtags are never closed, values are not escaped, an attribute myName replaces the name, and finding tags or scaling raises (negations)."
  },
  {
   "property": "C165",
   "status": "partial",
   "theorems": [
    "Verif.Props.C165_file",
    "Verif.Props.C165_passes",
    "Verif.Props.C165_readable",
    "Verif.Props.C165_density",
    "Verif.Props.C165_volume",
    "Verif.Props.C165_sensor",
    "Verif.Props.C165_element",
    "Verif.Props.C165_negation_axis",
    "Verif.Props.C165_negation_merge",
    "Verif.Props.C165_negation_write",
    "Verif.Props.C165_negation_cylinder"
   ],
   "note": "Merging and writing always raise, joints without an axis make the file unreadable, and the volume of cylinders is four times too large (negations). The comment with custom parameters is part of C171."
  },
  {
   "property": "C166",
   "status": "partial",
   "theorems": [
    "Verif.Props.C166_edges",
    "Verif.Props.C166_histories",
    "Verif.Props.C166_momentum",
    "Verif.Props.C166_floor",
    "Verif.Props.C166_center",
    "Verif.Props.C166_springs",
    "Verif.Props.C166_translation",
    "Verif.Props.C166_relaxed",
    "Verif.Props.C166_negation_reset"
   ],
   "note": "Over the reals. A new environment is one step of falling ahead of a reset one, and a reset keeps the old centre of gravity (negation)."
  },
  {
   "property": "C167",
   "status": "partial",
   "theorems": [
    "Verif.Props.C167_ready",
    "Verif.Props.C167_sensors",
    "Verif.Props.C167_contact",
    "Verif.Props.C167_observation",
    "Verif.Props.C167_actions",
    "Verif.Props.C167_pain",
    "Verif.Props.C167_grow",
    "Verif.Props.C167_walk",
    "Verif.Props.C167_jump",
    "Verif.Props.C167_jump_episode",
    "Verif.Props.C167_episode",
    "Verif.Props.C167_reset",
    "Verif.Props.C167_negation_dimension",
    "Verif.Props.C167_negation_unusable",
    "Verif.Props.C167_negation_delay"
   ],
   "note": "Tasks report 12 as the size of all observations, tasks with a target cannot be constructed, the others fail without a reset, and rewards belong to the state before the action (negations)."
  },
  {
   "property": "C168",
   "status": "partial",
   "theorems": [
    "Verif.Props.C168_waiting",
    "Verif.Props.C168_estimate",
    "Verif.Props.C168_coordinates",
    "Verif.Props.C168_negation_kept",
    "Verif.Props.C168_negation_single",
    "Verif.Props.C168_negation_irprop"
   ],
   "note": "Gradients are kept after an estimate, one parameter is not enough for one, and IRpropPlus always raises (negations)."
  },
  {
   "property": "C169",
   "status": "partial",
   "theorems": [
    "Verif.Props.C169_observation",
    "Verif.Props.C169_sizes",
    "Verif.Props.C169_steps",
    "Verif.Props.C169_by_name",
    "Verif.Props.C169_distance",
    "Verif.Props.C169_negation_initial",
    "Verif.Props.C169_negation_stale",
    "Verif.Props.C169_negation_unknown",
    "Verif.Props.C169_negation_failed",
    "Verif.Props.C169_negation_python3"
   ],
   "note": "Distance sensors report 0 before the first step and old distances after a reset, unknown bodies make every step fail, sensors whose addition failed stay in the list, and no file can be loaded in Python 3 (negations). Physics is an argument."
  },
  {
   "property": "C170",
   "status": "partial",
   "theorems": [
    "Verif.Props.C170_indim",
    "Verif.Props.C170_torques",
    "Verif.Props.C170_lengths",
    "Verif.Props.C170_copy",
    "Verif.Props.C170_steps",
    "Verif.Props.C170_sliders",
    "Verif.Props.C170_negation_partial",
    "Verif.Props.C170_negation_steps",
    "Verif.Props.C170_negation_sliders",
    "Verif.Props.C170_negation_load"
   ],
   "note": "Short actions are applied in part before they are refused, torques act in the first step of an action only, sliders have sensors but no actuator values, and actuators are not connected again when another file is loaded (negations)."
  },
  {
   "property": "C171",
   "status": "partial",
   "theorems": [
    "Verif.Props.C171_sections",
    "Verif.Props.C171_missing",
    "Verif.Props.C171_round_trip",
    "Verif.Props.C171_contacts",
    "Verif.Props.C171_symmetric",
    "Verif.Props.C171_negation_sensors",
    "Verif.Props.C171_negation_indent",
    "Verif.Props.C171_negation_parts"
   ],
   "note": "What the program does with sensor sections, indented tags and names that contain each other differs (negations)."
  },
  {
   "property": "C172",
   "status": "partial",
   "theorems": [
    "Verif.Props.C172_episode",
    "Verif.Props.C172_targets",
    "Verif.Props.C172_torques",
    "Verif.Props.C172_perturbations",
    "Verif.Props.C172_durations",
    "Verif.Props.C172_standing",
    "Verif.Props.C172_negation_broken",
    "Verif.Props.C172_negation_rob",
    "Verif.Props.C172_negation_robust",
    "Verif.Props.C172_negation_limit",
    "Verif.Props.C172_negation_jumping",
    "Verif.Props.C172_negation_standing_up"
   ],
   "note": "Broken-off episodes shorten the next one, perturbations do not end in Python 3, the limit of the reward has no effect, and two tasks fail (negations)."
  },
  {
   "property": "C173",
   "status": "partial",
   "theorems": [
    "Verif.Props.C173_places",
    "Verif.Props.C173_each_location",
    "Verif.Props.C173_bonus",
    "Verif.Props.C173_contacts",
    "Verif.Props.C173_table",
    "Verif.Props.C173_reflex",
    "Verif.Props.C173_negation_places",
    "Verif.Props.C173_negation_first",
    "Verif.Props.C173_negation_flag",
    "Verif.Props.C173_negation_grip"
   ],
   "note": "Locations take effect one part late, the punishment does not end, and the grip of an action is ignored (negations). Of the rewards only the terms named are modelled."
  },
  {
   "property": "C174",
   "status": "partial",
   "theorems": [
    "Verif.Props.C174_activation",
    "Verif.Props.C174_bptt",
    "Verif.Props.C174_derivs",
    "Verif.Props.C174_online",
    "Verif.Props.C174_batch",
    "Verif.Props.C174_rprop",
    "Verif.Props.C174_test",
    "Verif.Props.C174_library_partial"
   ],
   "note": "The LSTM layers must not themselves be input or output modules, the network keeps its history (forget = False), and the library's sigmoid is clipped at 500 (C14). Multi-dimensional LSTM layers are not covered."
  },
  {
   "property": "C175",
   "status": "partial",
   "theorems": [
    "Verif.Props.C175_images",
    "Verif.Props.C175_labels",
    "Verif.Props.C175_datasets",
    "Verif.Props.C175_one_hot",
    "Verif.Props.C175_cut",
    "Verif.Props.C175_cut_labels",
    "Verif.Props.C175_cut_sets",
    "Verif.Props.C175_foreign",
    "Verif.Props.C175_digits",
    "Verif.Props.C175_negative",
    "Verif.Props.C175_negation_text",
    "Verif.Props.C175_negation_magic",
    "Verif.Props.C175_negation_surplus"
   ],
   "note": "In Python 3 labels are never read, since their file is opened as text; the kind of a file and different lengths are not checked (negations)."
  },
  {
   "property": "C176",
   "status": "partial",
   "theorems": [
    "Verif.Props.C176_start",
    "Verif.Props.C176_generation",
    "Verif.Props.C176_learn",
    "Verif.Props.C176_negation_sampling",
    "Verif.Props.C176_negation_absolute"
   ],
   "note": "Without elitism shared sampling ignores all results, and an absolute evaluator has no effect (negations). The package cannot be imported at this commit; the classes are modelled as written."
  },
  {
   "property": "C177",
   "status": "partial",
   "theorems": [
    "Verif.Props.C177_start",
    "Verif.Props.C177_generation",
    "Verif.Props.C177_learn",
    "Verif.Props.C177_negation_budget",
    "Verif.Props.C177_negation_best",
    "Verif.Props.C177_negation_seeds"
   ],
   "note": "With three or more populations more games are played than announced, the part of a population that is played against is not its best one, and the caller's list of seeds is changed (negations). The package cannot be imported at this commit; the classes are modelled as written."
  },
  {
   "property": "C178",
   "status": "partial",
   "theorems": [
    "Verif.Props.C178_learn",
    "Verif.Props.C178_budget",
    "Verif.Props.C178_result",
    "Verif.Props.C178_negation_unlimited",
    "Verif.Props.C178_negation_steps",
    "Verif.Props.C178_negation_single",
    "Verif.Props.C178_negation_goal"
   ],
   "note": "scipy's fmin is an arbitrary program. Without a limit on evaluations TypeError is raised, one evaluation is always left unused, only one learning step is made, and the goal is noticed only when the search reports (negations)."
  },
  {
   "property": "C179",
   "status": "partial",
   "theorems": [
    "Verif.Props.C179_motion",
    "Verif.Props.C179_integration",
    "Verif.Props.C179_force",
    "Verif.Props.C179_mirror",
    "Verif.Props.C179_observation",
    "Verif.Props.C179_episode",
    "Verif.Props.C179_again",
    "Verif.Props.C179_randoms",
    "Verif.Props.C179_success",
    "Verif.Props.C179_negation_zero",
    "Verif.Props.C179_negation_discount",
    "Verif.Props.C179_negation_singleton",
    "Verif.Props.C179_negation_poles",
    "Verif.Props.C179_negation_coordinates",
    "Verif.Props.C179_negation_overwritten"
   ],
   "note": "The action 0 pushes the cart, discounting has no effect, a second task takes over the simulation of the first, tasks with more than two poles see nothing, and the additional Cartesian observations are wrong (negations)."
  },
  {
   "property": "C180",
   "status": "partial",
   "theorems": [
    "Verif.Props.C180_distribution",
    "Verif.Props.C180_plain",
    "Verif.Props.C180_elitism",
    "Verif.Props.C180_sampleElitism",
    "Verif.Props.C180_oneFifth",
    "Verif.Props.C180_madness",
    "Verif.Props.C180_negation_adaptive",
    "Verif.Props.C180_negation_shared",
    "Verif.Props.C180_negation_oneFifth"
   ],
   "note": "Adaptive shaping always chooses the smallest fraction, and changes the ranking function of all other optimizers; the one-fifth rule widens the distribution when nothing improves (negations). With all options off the search is that of C136."
  },
  {
   "property": "C181",
   "status": "partial",
   "theorems": [
    "Verif.Props.C181_momentum",
    "Verif.Props.C181_elitism",
    "Verif.Props.C181_vanillaScale",
    "Verif.Props.C181_online_start",
    "Verif.Props.C181_online_partial",
    "Verif.Props.C181_negation_vanillaScale",
    "Verif.Props.C181_negation_online_first",
    "Verif.Props.C181_negation_online_store",
    "Verif.Props.C181_negation_online_elitism"
   ],
   "note": "The utilities and the squared derivatives in the online baseline belong to the same samples only when the number of samples plus one is a multiple of the size of the batch; the first online update uses one other sample only, storing distributions raises TypeError, online learning ignores elitism, and vanilla scaling does not scale the center's movement (negations)."
  },
  {
   "property": "C182",
   "status": "partial",
   "theorems": [
    "Verif.Props.C182_prediction",
    "Verif.Props.C182_covariance",
    "Verif.Props.C182_reach_partial",
    "Verif.Props.C182_negation_order",
    "Verif.Props.C182_negation_single",
    "Verif.Props.C182_negation_dimension"
   ],
   "note": "The inputs are not sorted, so the reach is the average distance of neighbours only for samples given in increasing order, and the option has no effect when the last input is smaller than the first one; a single sample raises ZeroDivisionError and inputs with several components raise ValueError (negations)."
  },
  {
   "property": "C183",
   "status": "partial",
   "theorems": [
    "Verif.Props.C183_convert",
    "Verif.Props.C183_refused",
    "Verif.Props.C183_order_partial",
    "Verif.Props.C183_negation_order",
    "Verif.Props.C183_negation_values",
    "Verif.Props.C183_negation_owner"
   ],
   "note": "The order of the parameters is kept if connections were added in the order of their names, and not in general; the original network loses its components to the new one: its parameter vector is no longer connected to them and cannot be set (negations)."
  },
  {
   "property": "C184",
   "status": "partial",
   "theorems": [
    "Verif.Props.C184_train",
    "Verif.Props.C184_load",
    "Verif.Props.C184_exponents",
    "Verif.Props.C184_score_partial",
    "Verif.Props.C184_negation_grown",
    "Verif.Props.C184_negation_relabelled",
    "Verif.Props.C184_forward",
    "Verif.Props.C184_dataset",
    "Verif.Props.C184_negation_option"
   ],
   "note": "The searches compare with the targets at construction, so scores are wrong after the data set was changed; unknown options give probabilities (negations). The searches themselves are C153."
  },
  {
   "property": "C185",
   "status": "partial",
   "theorems": [
    "Verif.Props.C185_figure_partial",
    "Verif.Props.C185_bars",
    "Verif.Props.C185_negation_shared",
    "Verif.Props.C185_negation_merged",
    "Verif.Props.C185_negation_shown"
   ],
   "note": "Proved for the first object of the class; all objects share the lists of the class, and after a figure was shown runs cannot be added (negations). Printing and files are not modelled."
  },
  {
   "property": "C186",
   "status": "partial",
   "theorems": [
    "Verif.Props.C186_value",
    "Verif.Props.C186_negation_none",
    "Verif.Props.C186_negation_empty",
    "Verif.Props.C186_tied",
    "Verif.Props.C186_explorer_partial",
    "Verif.Props.C186_negation_before",
    "Verif.Props.C186_negation_paramless",
    "Verif.Props.C186_sync_partial",
    "Verif.Props.C186_negation_sync",
    "Verif.Props.C186_negation_dataset"
   ],
   "note": "Explorers cannot be taken away; modules without parameters count as missing; policy gradient learners lose explorers assigned before the agent is made and the log-likelihoods when an explorer is assigned; learning from another data set disconnects the learner from the agent (negations)."
  },
  {
   "property": "C187",
   "status": "partial",
   "theorems": [
    "Verif.Props.C187_convert",
    "Verif.Props.C187_back",
    "Verif.Props.C187_refused",
    "Verif.Props.C187_remove",
    "Verif.Props.C187_add_partial",
    "Verif.Props.C187_negation_add",
    "Verif.Props.C187_negation_split"
   ],
   "note": "Samples added after the conversion make the classes of the last sequence, removals and assigning classes fail; stratified splits always raise an IndexError (negations)."
  },
  {
   "property": "C188",
   "status": "proved",
   "theorems": [
    "Verif.Props.C188_states",
    "Verif.Props.C188_start",
    "Verif.Props.C188_shortest",
    "Verif.Props.C188_farthest",
    "Verif.Props.C188_reward"
   ],
   "note": "The maze is the PolarMaze model of C36, with random replacements of actions as arguments. The shortest ways are proved for all sequences of actions by a potential (the distances), checked on all states. The turns 'left' and 'right' are exchanged in the library (C36). The noise of the sensors is not part of this property."
  },
  {
   "property": "C189",
   "status": "partial",
   "theorems": [
    "Verif.Props.C189_reachable",
    "Verif.Props.C189_copy",
    "Verif.Props.C189_independent",
    "Verif.Props.C189_alike_partial",
    "Verif.Props.C189_saved_partial",
    "Verif.Props.C189_negation_constructor",
    "Verif.Props.C189_negation_plain",
    "Verif.Props.C189_negation_compact",
    "Verif.Props.C189_negation_state",
    "Verif.Props.C189_negation_shared"
   ],
   "note": "Copies are equal and independent for all data sets of pybrain's own dataset classes; the same behaviour is proved if no two fields share memory and fields are not returned as lists. Violated (negations): classes with constructors of their own can be neither copied nor saved; plain data sets cannot be saved; compact saving fails in the format 'list'; the vector format, the position and the class statistics are lost; the fields target and class of a ClassificationDataSet made of arrays are the same memory, in the copy they are not. loadFromFile opens files in the mode 'rbU', which Python 3.11 and later refuse (not modelled)."
  },
  {
   "property": "C190",
   "status": "partial",
   "theorems": [
    "Verif.Props.C190_points",
    "Verif.Props.C190_accepted",
    "Verif.Props.C190_drawn",
    "Verif.Props.C190_range_partial",
    "Verif.Props.C190_range_kept",
    "Verif.Props.C190_style",
    "Verif.Props.C190_file",
    "Verif.Props.C190_negation_unsorted",
    "Verif.Props.C190_negation_empty",
    "Verif.Props.C190_negation_backwards",
    "Verif.Props.C190_negation_shared",
    "Verif.Props.C190_negation_color",
    "Verif.Props.C190_negation_last",
    "Verif.Props.C190_negation_file"
   ],
   "note": "The limits contain all points if these are given from left to right and no line is empty. Violated (negations): other orders of points, empty lines and reversed axes with automatic scaling; lists shared by two lines; setting colours always raises a TypeError; the style of 'the last line' adds the offset twice; files do not separate the lines. MultilinePlotter.show uses a name that is not imported (title) and always fails; it is not modelled."
  },
  {
   "property": "C191",
   "status": "partial",
   "theorems": [
    "Verif.Props.C191_evaluations",
    "Verif.Props.C191_none",
    "Verif.Props.C191_mean_partial",
    "Verif.Props.C191_items_partial",
    "Verif.Props.C191_negation_padding",
    "Verif.Props.C191_negation_maximize",
    "Verif.Props.C191_negation_target",
    "Verif.Props.C191_negation_batch"
   ],
   "note": "Averages over evaluations are proved for minimisation with a target, averages of fitnesses for runs of the same length (after being cut off at the target). Violated (negations): runs that end earlier are padded with zeros; maximisation averaged over evaluations; no target averaged over evaluations; a number of evaluations given for one name is used for the following names, too."
  },
  {
   "property": "C192",
   "status": "partial",
   "theorems": [
    "Verif.Props.C192_ciao",
    "Verif.Props.C192_ciao_roles",
    "Verif.Props.C192_ciao_partial",
    "Verif.Props.C192_negation_ciao",
    "Verif.Props.C192_colors",
    "Verif.Props.C192_negation_colors",
    "Verif.Props.C192_ellipse_partial",
    "Verif.Props.C192_negation_ellipse",
    "Verif.Props.C192_closed",
    "Verif.Props.C192_landscape",
    "Verif.Props.C192_accepted",
    "Verif.Props.C192_samples_partial",
    "Verif.Props.C192_negation_samples",
    "Verif.Props.C192_punchcard",
    "Verif.Props.C192_negation_card",
    "Verif.Props.C192_negation_empty"
   ],
   "note": "Violated (negations): CIAO plots never evaluate individuals of the first population against later ones of the second; constant evaluations divide by zero; ellipses are mirrored if svd gives a rotation (proved for symmetric u); samples can be outside if the range does not contain 0; punch cards expect class 0 for targets that are class numbers, and fail without sequences. plot_module_classification_dataset_performance uses a name that is not imported (ceil) and always fails; it is not modelled."
  },
  {
   "property": "C193",
   "status": "partial",
   "theorems": [
    "Verif.Props.C193_line",
    "Verif.Props.C193_position",
    "Verif.Props.C193_legal",
    "Verif.Props.C193_answer_partial",
    "Verif.Props.C193_handshake",
    "Verif.Props.C193_negation_pieces",
    "Verif.Props.C193_negation_bytes",
    "Verif.Props.C193_negation_closed"
   ],
   "note": "The answer is played if it arrives in one piece. Violated (negations): of answers in several pieces only one is evaluated, and the rest is taken for the next answer; OK in two pieces is not recognised; with a closed connection the player waits for ever. The model follows the strings of Python 2; in Python 3 every send of a str raises a TypeError."
  },
  {
   "property": "C194",
   "status": "partial",
   "theorems": [
    "Verif.Props.C194_nonneg_partial",
    "Verif.Props.C194_exact_partial",
    "Verif.Props.C194_plateau_partial",
    "Verif.Props.C194_smallest_partial",
    "Verif.Props.C194_negation_zero",
    "Verif.Props.C194_negation_opt",
    "Verif.Props.C194_negation_peaks",
    "Verif.Props.C194_negation_schwefel",
    "Verif.Props.C194_negation_bounds"
   ],
   "note": "All functions but the 20th are shown to take no negative values. Single zero at xopt: 1, 12-14, 17, 18, 101-103, 107-109, 119-124. Zero at xopt: 7, 23, 113-115. Single minimum below 1e-8 at xopt: 2-4, 6, 10, 11, 116-118. Violated (negations): oscillating functions and the sector never take the value zero; the optimum of 5, 8, 9, 19, 21, 22, 24, 104-106, 110-112, 125-130 is not where reported; 20 has values below -400; the minimum of penalized Rosenbrock functions may be outside of the bounds. Missing: where the minima of 15 and 16 are."
  },
  {
   "property": "C195",
   "status": "partial",
   "theorems": [
    "Verif.Props.C195_places_partial",
    "Verif.Props.C195_geom_partial",
    "Verif.Props.C195_mass_partial",
    "Verif.Props.C195_volume",
    "Verif.Props.C195_body",
    "Verif.Props.C195_empty",
    "Verif.Props.C195_negation_nested",
    "Verif.Props.C195_negation_order",
    "Verif.Props.C195_negation_density",
    "Verif.Props.C195_negation_masses",
    "Verif.Props.C195_negation_late",
    "Verif.Props.C195_negation_lost"
   ],
   "note": "Places for files in which transformations come first and geoms inside a moved geom of a body have their own; masses for elements that begin with a shape with density. Violated (negations): masses of nested masses only contain an additional unit sphere; shapes after nested masses discard them; shapes without density are ignored; of several mass elements the last counts; transformations after other children have no effect; the transformation of an outer geom in a body is lost for inner geoms."
  },
  {
   "property": "C196",
   "status": "partial",
   "theorems": [
    "Verif.Props.C196_combinations_partial",
    "Verif.Props.C196_curves_partial",
    "Verif.Props.C196_label",
    "Verif.Props.C196_texts",
    "Verif.Props.C196_negation_sorted",
    "Verif.Props.C196_negation_default",
    "Verif.Props.C196_negation_two",
    "Verif.Props.C196_negation_labels"
   ],
   "note": "Proved for calls without exception (orders of dictionaries as in Python 2). Violated (negations): in Python 3 sorting dictionaries raises a TypeError as soon as there are two combinations; the default of varyperplot raises a TypeError; curves with two points are drawn as one point; coordinates cannot be moved by the differentiator; values with the same first five characters have the same label."
  },
  {
   "property": "C197",
   "status": "partial",
   "theorems": [
    "Verif.Props.C197_camera_partial",
    "Verif.Props.C197_zoom_partial",
    "Verif.Props.C197_frozen",
    "Verif.Props.C197_negation_start",
    "Verif.Props.C197_negation_follow",
    "Verif.Props.C197_negation_zoom",
    "Verif.Props.C197_objects",
    "Verif.Props.C197_plane_partial",
    "Verif.Props.C197_negation_normal",
    "Verif.Props.C197_screenshots_partial",
    "Verif.Props.C197_negation_screenshots"
   ],
   "note": "Camera after the mouse was used and with no object followed, or one above or below the origin; view distance for dragging inside the window; planes with unit normals; screenshots in a directory that was empty. Violated (negations): before the mouse is used the eye is 1.5 times the view distance away; the camera follows only the height of an object; dragging outside the window gives distances near 0; planes with other normals are drawn in the wrong place; the first frame is not saved, and screenshots replace others after files were removed."
  },
  {
   "property": "C198",
   "status": "partial",
   "theorems": [
    "Verif.Props.C198_faces",
    "Verif.Props.C198_quads",
    "Verif.Props.C198_box",
    "Verif.Props.C198_mirror_partial",
    "Verif.Props.C198_negation_mirror",
    "Verif.Props.C198_shadow_partial",
    "Verif.Props.C198_negation_shadow"
   ],
   "note": "The vertices of mirror image and shadow are proved. Violated (negations): the normals of the mirror image are those of the cube, not mirrored ones; the normals of the shadow point down, and one of its faces is below the floor."
  },
  {
   "property": "C199",
   "status": "partial",
   "theorems": [
    "Verif.Props.C199_ends",
    "Verif.Props.C199_importance",
    "Verif.Props.C199_outputs",
    "Verif.Props.C199_class",
    "Verif.Props.C199_mse",
    "Verif.Props.C199_hits_partial",
    "Verif.Props.C199_negation_columns",
    "Verif.Props.C199_negation_importance"
   ],
   "note": "The hit rate of a module is proved for one column of targets. Violated (negations): with several columns, or for data sets with importances, a TypeError is raised. Sequence markers are whole numbers in the model."
  },
  {
   "property": "C200",
   "status": "partial",
   "theorems": [
    "Verif.Props.C200_diagonal_partial",
    "Verif.Props.C200_negation_scale",
    "Verif.Props.C200_negation_direction"
   ],
   "note": "The joint distribution is proved for the diagonal of the matrix, for every dimension. Violated (negations): with the full matrix the scale is the root of that with the diagonal, and samples lie in a wrong direction."
  },
  {
   "property": "C201",
   "status": "partial",
   "theorems": [
    "Verif.Props.C201_frames",
    "Verif.Props.C201_latest",
    "Verif.Props.C201_stop",
    "Verif.Props.C201_progress",
    "Verif.Props.C201_cart_partial",
    "Verif.Props.C201_values",
    "Verif.Props.C201_negation_torn",
    "Verif.Props.C201_negation_colour",
    "Verif.Props.C201_negation_first"
   ],
   "note": "SimpleRenderer for all schedules; CartPoleRenderer for frames during which updateData is not called, and for all schedules the fact that all values come from calls, in their order. Violated (negations): CartPoleRenderer reads the data without the lock, so that the cart and the ends of the pole may come from different states; the cart is green for every angle to the left; the first picture has a pole of twice the length."
  },
  {
   "property": "C202",
   "status": "partial",
   "theorems": [
    "Verif.Props.C202_exclusive",
    "Verif.Props.C202_order",
    "Verif.Props.C202_shown",
    "Verif.Props.C202_reset_partial",
    "Verif.Props.C202_negation_exception",
    "Verif.Props.C202_negation_stale"
   ],
   "note": "Mutual exclusion and order for all schedules, also with exceptions; updates are started again if there was no exception; after the signal of a reset at most one state from before it is sent, and none if no thread is about to send. Violated (negations): after an exception in listen or send the lock stays locked, and no state is sent any more; the signal of a reset is sent without the lock, so that a state before the reset may be sent after it."
  },
  {
   "property": "C203",
   "status": "partial",
   "theorems": [
    "Verif.Props.C203_once",
    "Verif.Props.C203_single_partial",
    "Verif.Props.C203_negation_finished",
    "Verif.Props.C203_negation_race"
   ],
   "note": "At most one start for all schedules; no exceptions with one caller as long as the renderer has not finished. Violated (negations): after the renderer has finished, start raises an exception, and so it may when two threads call it at the same time. The test and the start in the standard library's Thread.start are taken as one step."
  },
  {
   "property": "C204",
   "status": "partial",
   "theorems": [
    "Verif.Props.C204_order",
    "Verif.Props.C204_whole_partial",
    "Verif.Props.C204_still_partial",
    "Verif.Props.C204_shown",
    "Verif.Props.C204_negation_torn",
    "Verif.Props.C204_negation_exception"
   ],
   "note": "For all schedules messages are complete and values never go back; a message shows one state if the world makes no step while it is built; without exceptions updates are started again. Violated (negations): the lock is not taken by step, so that a message may mix values from before and after a step; after an exception in listen or send no message is sent any more."
  },
  {
   "property": "C205",
   "status": "partial",
   "theorems": [
    "Verif.Props.C205_adding_partial",
    "Verif.Props.C205_alone",
    "Verif.Props.C205_negation_drop"
   ],
   "note": "For all schedules in which listen only adds clients. Violated (negation): when listen drops all clients while send runs, as may happen when an environment with viewers is reset, send raises an exception."
  },
  {
   "property": "C206",
   "status": "partial",
   "theorems": [
    "Verif.Props.C206_cube_partial",
    "Verif.Props.C206_ship_partial",
    "Verif.Props.C206_negation_reset",
    "Verif.Props.C206_negation_lost",
    "Verif.Props.C206_negation_heading"
   ],
   "note": "The states shown, for all sequences of messages. Violated (negations): the cube's viewer ignores resets, because it evaluates the signal twice; the ship's viewer raises an exception when a message is lost; it takes half of the heading's angle."
  }
 ]
}