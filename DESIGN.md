# Formal model of pybrain in Lean 4: design

## 1. Layout

* `lean/Verif/Model/*.lean`  executable model of the code, one file per source area. Every
  definition carries a comment citing the file and lines in `/repo` that it models, and says what
  was simplified.
* `lean/Verif/Spec/*.lean`   small specifications that do not mention the model's helpers.
* `lean/Verif/Lemmas/*.lean` helper lemmas.
* `lean/Verif/Props/*.lean`  the property theorems only, each next to `example`s showing that a
  concrete, non-trivial case meets its hypotheses.
* `MANIFEST.json`            property → theorem names.
* `seeded/LOG.jsonl`         log of mutation experiments (deliberately wrong models).

## 2. Trusted base

* Lean 4.33.0's kernel and the three standard axioms `propext`, `Classical.choice`, `Quot.sound`.
  No own axioms, no `sorry`, no `native_decide`/`bv_decide`.
* The reading of the Python source into the model. The code was never run.
* Idealisations used throughout:
  * Python floats / numpy float arrays are elements of an ordered field `K` (or `ℝ` where exp, tanh
    or derivatives are needed). Rounding, overflow, NaN and infinities are not modelled, except
    where a branch of the code tests for them (then stated in the definition).
  * Python ints are `Nat`/`Int`. Exceptions are values (`Except`/`Option`). Mutation returns a new
    state. Where aliasing between Python objects matters for a property, a small explicit heap
    or shared-cell model is used.
  * Randomness: every random choice is an explicit argument (an oracle), and theorems quantify over
    it. No statement about probability distributions is made.
  * Iteration order of Python sets/dicts is an explicit list argument; theorems quantify over it.
  * The code base is a Python 2/3 hybrid. Where integer division `/` or float slice bounds would
    raise `TypeError` under Python 3, the model uses the evident integer semantics (Python 2) and the
    comment says so.

## 3. Plan per property

| id | what is modelled | how it is proved |
|----|------------------|------------------|
| C01 | DataSet state: fields with buffer, end marker, link list; every mutating method as a step | invariant by induction over a list of operations |
| C02 | buffer with over-allocation, growth | refinement of (buffer, endmarker) to a list of rows |
| C03 | cursor, getLinked, endOfData | induction on remaining rows |
| C04 | batches as index ranges | partition theorem on list chunks; permutation version |
| C05 | SequentialDataSet = rows + sequence_index list | invariant: index strictly sorted, starts at 0; refinement to list of lists |
| C06 | removeSequence branches | refinement to `List.eraseIdx` on list of lists |
| C07 | splitWithProportion with permutation argument | `List.Perm` of concatenation |
| C08 | one-of-many encoding, argmax decoding | pointwise argmax lemma |
| C09 | splitByClass, histogram | filter lemmas; sum of counts |
| C10 | Kahn algorithm of `_topologicalSort` | invariant; success iff acyclic |
| C11 | slices over a list of components | list induction on offsets |
| C12 | network as DAG with sums of incoming values, executed imperatively on buffers | buffers after the forward sweep satisfy the defining equations; uniqueness of solutions |
| C13 | forward and reverse sweep over arbitrary differentiable modules | reverse-mode correctness by induction along the sorted order, `HasFDerivAt`/`HasDerivAt` |
| C14 | each layer forward/backward over ℝ | `HasDerivAt` calculations |
| C15 | each connection forward/backward over a commutative ring | adjointness: ⟨e, f x⟩ = ⟨fᵀ e, x⟩ for all x, e |
| C16 | time-indexed buffers, growth, offset | refinement to the unrolled recurrence |
| C17 | int2gray, gray2int with bit loops | bit-level round trip on all naturals |
| C18 | enumeration helpers | membership + Nodup |
| C19 | flood, reachable | equality with the inductive reachability relation; negation for `reachable` |
| C20 | triu2flat/flat2triu | index bijection |
| C21,C22 | the front algorithms with explicit iteration order | antichain invariant, transitivity of domination |
| C23 | nsga2select | length and front-prefix theorem |
| C24 | rankedFitness via two argsorts | permutation and monotonicity |
| C25–C28 | BlackBoxOptimizer bookkeeping, learn loop, hill climber | invariants over evaluation histories; simulation for duality |
| C29 | MaskedParameters | invariant over mutation sequences |
| C30 | array_split of a permutation | partition lemmas |
| C31,C32 | job enumeration loops; DOE grid | loop invariants |
| C33 | capture game groups/liberties | invariant: group labels = connected components, liberty sets = empty neighbours |
| C34,C35 | gomoku and pente move logic | ray-count lemma; counting invariant |
| C36,C37 | maze moves, observation numbering | invariant; injectivity / counterexample |
| C38,C39 | tournament bookkeeping, Elo | enumeration + sum conservation |
| C40 | Q/SARSA tabular updates | convex-combination invariant |
| C41 | policy matrices | sums over finite types |
| C42 | normalise / denormalise | field algebra; counterexample for the discarded clip |
| C43 | LoggingAgent protocol automaton | induction over calls |
| C44 | trainUntilConvergence control flow with abstract training dynamics | loop induction; counterexamples for the off-by-one |
| C45,C46 | GradientDescent | invariant; closed form |
| C47 | SimplePopulation | invariant and counterexample for n = 0 |
| C48 | MinHash | invariant over put histories |
| C49 | writer/reader on an XML tree | round trip under exact guard, counterexample |
| C50 | window conversion | counterexample + partial |
| C51 | transformations with shared optimum cells | algebra; counterexamples |
| C52 | buildNetwork | structural equality |
| C53 | `__len__` of datasets without linked fields | case analysis |
| C54 | `__add__` of classification datasets | list equality; counterexamples |
| C55 | helpers of tools/functions.py over ℝ | derivative calculations |
| C56 | backActivate twice on the same buffers | sweep lemma of C13; counterexample |
| C57 | copies with a heap of arrays and views | simulation on disjoint views |
| C58 | recurrent networks with `forget` | simulation between bounded and unbounded buffers |
| C59 | back-propagation through time | reverse sweep over the unrolled graph |
| C60 | binary and one-of-n codes | round trips |
| C61 | block permutation in two and three dimensions, block diagonals | index arithmetic |
| C62 | crowding distance | fold over objectives |
| C63 | ranking functions | order statements; counterexample |
| C64 | decrementAny | membership |
| C65 | masked evolvables | copies on a heap |
| C66 | validation measures | sums |
| C67 | Q(lambda) | traces over episodes; counterexamples |
| C68 | episodic tasks | induction over steps |
| C69 | experiments | induction over interactions |
| C70,C71 | Evolino selection, reproduction, evaluation | counting; invariants |
| C72 | Euclidean locality-sensitive hashing | sortedness and distance bounds |
| C73 | normalisation of datasets | field algebra, text parsing; counterexamples |
| C74 | benchmark functions over ℝ | inequalities |
| C75 | construction interface of networks | invariant over histories of calls |
| C76 | LSTM layer forward and backward through time | invariant over steps, adjoint recursion against derivative of the recurrence |
| C77 | random draws of indices | partial sums, Lebesgue measure of intervals |
| C78 | explorers | measure of intervals, derivative of the log density |
| C79 | genetic algorithm | permutations and stable sorting |
| C80 | evolution strategies | permutations and stable sorting, index arithmetic |
| C81 | particle swarm optimizer | induction over steps and over the particles of a step |
| C82 | training epochs of BackpropTrainer and RPropMinusTrainer over an abstract module interface, instantiated with recurrent networks | laws of the interface proved from C16 and C59; chain rule; induction over sequences |
| C83 | FiniteDifferences, SimpleSPSA, PGPE on top of the optimizer and descender models; pseudo-inverse as an argument with the Penrose conditions | normal equations, invariants over steps |
| C84 | policy gradient learner, REINFORCE, ENAC over an abstract differentiable module | induction over histories of calls; least squares; derivatives of the log-density |
| C85 | neuron-decomposable networks: parameter information, index dictionary, reading and writing decompositions | partition by induction over the parameters; round trips over disjoint index lists |
| C86 | SequenceClassificationDataSet | refinement to a list of sequences over all histories; permutations |
| C87 | importanceMixing with the random numbers as arguments | loop invariants; Lebesgue measure of the accepted draws |
| C88 | XNES and SNES with storage, pointers and importance mixing, exact matrix exponentials | invariants over runs (spectral theorem for det exp = exp tr); equivariance of steps by linear algebra, then induction; Chebyshev's sum inequality |
| C89 | CMAES with the eigenvalue routine as argument | positive definiteness by induction; permutation and sorting lemmas; equivariance of runs; trace argument for the negation |
| C90 | makeCentered, pca, pPca, reduceDim with eig as argument | Bessel and Ky Fan inequalities over lists of orthonormal vectors; matrix algebra for the subspace iteration |
| C91 | kinit with the first index as argument | loop invariant: distances to the nearest seed; strict decrease of the cost gives distinctness |
| C92 | GaussianProcess without plotting and autonoise | refinement to the list of samples; kernel matrices positive semidefinite by the Schur product theorem and the exponential series; variational bounds for the variances |
| C93 | linearfa.py: policies, learning rate, the updates of all six learners, with pinv2 as argument | closed forms by induction; simulation between table and weights; linear algebra for the least-squares equations |
| C94 | LinearFA_Agent with the learner as the list of calls it receives | induction over the steps of episodes with the state after a complete step as invariant |
| C95 | leastsquares.py with lstsq as argument | sums rearranged to the Bellman error; uniqueness of the value function; reduction of LSPI to policy iteration (C41) |
| C96 | the conversion of the dataset in NFQ.learn, ActionValueNetwork with the network as a function | induction over sequences; order reasoning for the bounds |
| C97 | the maze tasks on top of the maze model of C36, random numbers as arguments | cell and wall lemmas for corridors of any length, induction over histories; Lebesgue measure of the random numbers |
| C98 | cartpole.py with the Runge-Kutta step | linear algebra of the equations of motion, derivative of the energy, induction over steps |
| C99 | balancetask.py over an abstract environment, with its four instances | induction over episodes; real inequalities for the simulation of two poles |
| C100 | mountaincar.py; the bookkeeping shared with acrobot.py over an abstract simulation | invariant over histories of calls; induction over the actions of an episode |
| C101 | acrobot.py | invariant over histories, real inequalities; derivative of the energy |
| C102 | xor.py with random draws as arguments, both kinds of division | induction over histories; Lebesgue measure |
| C103 | shipsteer.py without rendering, northwardtask.py; noise as argument | invariant over histories; sums of rewards |
| C104 | capturetask.py, gomokutask.py, pentetask.py over an abstract game, with the games of C33 and C34 as instances | induction over moves and games; every move fills a point |
| C105 | handicaptask.py with arbitrary outcomes of games; giveHandicap of capturegame.py | the dictionary of results is the tally of the history; refinement to a procedure on histories; invariant of C33 for handicap stones |
| C106 | relativetask.py, relativegomokutask.py with the games of C33 and C34 | closed form of the loop; C104 for the games; floor arithmetic for the cycles |
| C107 | moduleslice.py, viewOnFlatLayer of modulemesh.py | decision logic; row-major numbering is a bijection between units and indices |
| C108 | swiping.py, multidimensional.py with the networks of C12 | the plan of connections is good for a rank function, so C12 gives a unique solution; sums over connections are evaluated; symmetries by uniqueness |
| C109 | bidirectional.py with the networks of C12 | as C108; the states are those of two recursions |
| C110 | convolutional.py with the networks of C12 | as C108; sums over connections collapse to the window |
| C111 | convboard.py | as C110; the padded cells are the complement of the board, each once (C18) |
| C112 | The multi-dimensional LSTM layer with its buffers (one row), forward and backward pass, slices | A cell of the specification per index; the derivative of output and state of one cell along curves, summed over the blocks of inputs and weights (`ModDiff`, so that the theorem on network gradients applies); induction over time for one dimension |
| C113 | The hidden-to-hidden connections in the order in which they are added, and the loop that connects states | The outgoing connections of a unit are a sorted sublist of the row-major list of units, so they are determined by membership; position in this list is the block |
| C114 | The network of a machine, `invert` as the reshaping of the flat array | The network run of C107 for a plan of two layers; index arithmetic |
| C115 | Trainers with flat arrays, one row and one iteration at a time; samplers as arguments | Refinement to contrastive divergence on weights with two indices, with a wiring for the order in which the array is read; induction over rows, iterations and batches; lengths of intervals for probabilities |
| C116 | samplelayer.py | Lebesgue measure of the random numbers with output 1 |
| C117 | The decisions of `train` and `fromModules` about names | Case analysis |
| C118 | The network inside an EvolinoNetwork with all its buffers, growth, offsets and in-place scaling of outputs | Invariant relating buffers at the offset to a memory (states, cell outputs, last output); induction over sequences |
| C119 | The order in which weights are read and written | Places of a chromosome characterised by division with remainder; nodup; induction over places and cells |
| C120 | `_evaluateNet`, pseudo-inverse as argument | Composition of C118 runs; normal equations from the Penrose conditions |
| C121 | The counters of the trainer | Invariant: the last event; induction over epochs |
| C122 | `_learnStep`, `evaluatePopulation`, selection, elitism with the orders of the sets as arguments, on top of the models of C21-C23 and C79 | Fitness dictionary invariant; front theorems of C21; induction over generations for progress |
| C123 | Benchmark functions over the reals | Projection onto the segment and triangle inequality (Sch, Fon); inequalities (Deb, Srn, Osy) |
| C124 | `LennardJones.f` with the whole matrix of distances, table of best known values | Sum over a symmetric matrix; square completion; Gram matrix of equidistant points; the table by evaluation |
| C125 | Forward and backward passes of Gaussian and state-dependent layers over the reals | Derivatives of the log-density (`HasDerivAt`) compared with what is computed |
| C126 | `MixtureDensityLayer`, `gaussian`, errors of `BackpropTrainerMix` | Derivatives of the error with respect to each activation |
| C127 | `PartialSoftmaxLayer` | Lower bound of the sum |
| C128 | `KohonenMap` over an ordered field | Argmin in iteration order; induction over the training sequence |
| C129 | Players on the model of C33, `playToTheEnd` with fuel, `_legalizeIt` on the model of C77 | Specification of captures from C33; the number of empty points decreases; transfer of connected groups between two boards; Lebesgue measure of random numbers |
| C130 | `load_libsvm`, `SVMData` on parsed lines (label, list of index and value) | Induction over the lines; specification by feature lookup; round trip with a sparse encoder |
| C131 | Copies sharing a stored module, as operations on numbered copies | Refinement to independent modules, by induction over the operations |
| C132 | `KWArgsProcessor.add` on attribute maps | Induction over the descriptions |
| C133 | `switchMutations` around the steps, with a log of mutations; local searches by their number of steps and exceptions | Induction over the challengers and the steps |
| C134 | `evaluateMSE`, `evaluateModuleMSE` with stateful modules on lists of sequences | Induction over samples and sequences; comparison with a separate mean squared error |
| C135 | The training loops with the weights as an abstract state and errors as functions of it | Loop invariant: the stored best is the first minimum of the errors so far |
| C136 | One center of FEM, with samples, fitnesses and densities given | Invariant over the steps; convexity; positive definiteness of the mean with an outer product |
| C137 | The derivatives, baselines, the block-wise natural gradient and the update as matrices over the reals; the expectation as a linear functional with the moments of the standard normal distribution | `HasDerivAt` along every entry; induction over the blocks of the Fisher information; sums of squares |
| C138 | Samples and update of rank one as vectors over the reals | Moments; Sherman-Morrison; derivative of the log-density; bounds on one step |
| C139 | `learnOneBatch` on given episodes, `updateTau`, `learn` and the arguments given to the trainer | Induction over steps and episodes; positivity of weighted sums; concrete witness for a negative temperature |
| C140 | The helper functions over lists; memoized calls and names as state machines | Induction over histories and lists; sums over pairs |
| C141 | Givens rotations over the reals, numpy's assignment to slices, `packbits` | Products of orthogonal matrices; invariant on the support; induction over blocks and bytes |
| C142 | Both classes over the reals, the table of the density, uniform and normal draws as arguments | Invariant over operations; Lebesgue measure of the draws that select a Gaussian |
| C143 | `calculateGradient` on lists of episodes with nan as an option | Sums over episodes and time steps; comparison with the leave-one-out estimate |
| C144 | The loops over rows with `inv` and `blockCombine` over the reals | Inverses of block matrices; moments of the standard normal distribution |
| C145 | `__call__` and `_adaptResampling` with the noisy function as a sequence of values | Invariant over calls; bounds of the median |
| C146 | Columns as lists, sorting by Python's order of tuples; `generateIBP` with the drawn proportions and numbers as arguments | Order of tuples is that of binary numbers; loop invariant; geometric sums |
| C147 | The constructor and the constructed function over the reals, nan as an option, random matrices and noise as arguments | Every transformation maps zero, and only zero, to zero; bounds of the oscillation |
| C148 | The functions over the reals with random parameters as arguments | Elementary inequalities; solution of a triangular system |
| C149 | Environment and task as records, steps as functions of the action and the noise | Induction over the steps of an episode; concrete witnesses |
| C150 | The experiment on the model of learning agents of C43 and C69 with the history as sequential dataset | Invariant: the history holds the last `n` episodes |
| C151 | Enumeration as list, programs as partial functions, phases with fuel | Induction over the phases |
| C152 | Plan of modules and connections on top of the swiping networks of C108; tables of border connections as association lists | Sums over connections; induction over the progress of a swipe; bijections of units and swipes |
| C153 | Both searches with the outcome of cross-validation as argument, over any ordered field; the range loop with fuel | Invariant over the levels; permutations of the grid |
| C154 | Adapter and benchmarking agent on the logging agents of C43; the benchmark directory as list of file names, with a budget of tests before the run is killed | Simulation with the protocol of C43, induction over episodes; file names determine agent and loop |
| C155 | Environment with the server's answers as arguments | Induction over histories |
| C156 | Strings as lists of characters, files as optional bytes, pickling as an argument, processes as state machines | Induction over calls; witnesses for crashes and schedules that are general in the data |
| C157 | Nodes as a tree, attributes as association lists, formatting and parsing of single numbers as arguments | Induction over children and attributes; the text that is written is computed |
| C158 | Parameters as lists with slices, permutations as functions on flat positions | Arithmetic of slices; induction over the axes with quotient and remainder |
| C159 | Genomes as trees in a store of objects, random numbers as a stream, variates over the reals | Mutual induction over trees, invariant over histories, Lebesgue measure of preimages |
| C160 | Server and waiting datagrams as state machines, data as trees of expressions, text as an argument | Invariant over histories; induction over expressions |
| C161 | Experiments and histories of C43/C69 with any learner; explorer as a pair of parameter lists | Induction over the steps and over the events of an episode |
| C162 | Tables of results keyed by players, players with parameters and parents, all random choices as arguments | Refinement of the tables to the list of games; invariant over generations; fuel for the loop |
| C163 | The same tables; fitness sharing as sums over lists | Induction over the sample, double counting |
| C164 | Tag trees with a cursor (current tag and the tags around it), texts as strings | Refinement to documents with addresses by induction over calls; independent XML reader, induction over the tree |
| C165 | The same cursor; bodies, joints and floors as records | Refinement to the list of tags of the items by induction; real analysis for the springs |
| C166 | Points, springs and velocities as real vectors; the Euler step as written | Invariant by induction over acts; antisymmetry of the forces; commutation with translations |
| C167 | Sensors as functions of the state; tasks with exceptions as values | Case analysis per class; induction over the steps of an episode |
| C168 | Samples as a list of vectors, covariance and inverse as matrices over a field | Induction over the calls; matrix algebra for changes of coordinates |
| C169 | Environment, sensors and files as records; the physics as an argument; operations with exceptions as values | Invariant by induction over histories of operations |
| C170 | Actuators with the joints they were connected to; torques as a list of calls | Induction over actuators and joints |
| C171 | Lines as lists of characters, the grabber as a scan with state | Induction over lines; round trip of writing and reading |
| C172 | Counters of a task; controller over the reals; gravity as a function of the count | Induction over the steps of an episode |
| C173 | Count, next and current perturbation; contacts as a function of two names | Induction over the calls of an episode |
| C174 | Network buffers with the memories of the LSTM layers; transfer functions arbitrary; unrolled graph plus LSTM recurrence as specification | Simulation by a network without memories, in which the cell states are outputs carried by recurrent identity connections; then C16, C59 and C82 for that network |
| C175 | Files as lists of bytes; opening as bytes or text; generators as the values yielded and the exception at the end | Induction over the images and labels |
| C176 | Both populations, the tables of results and the earlier populations; base class as in C162 | Invariant over generations; tournaments refined to lists of games |
| C177 | Populations as a function of their number, the main one and the tables of results; base class as in C162 | Invariant over generations; induction over the other populations |
| C178 | `fmin` as an arbitrary program of evaluations and reports, run on the optimizer of C25-C28 | Induction on the program; log of evaluations as in C25 |
| C179 | The C program's global variables and arrays (uninitialised ones arbitrary) and the Python task around it | Accelerations as unique solution of the equations of motion; refinement of the array code to the Runge-Kutta step; induction over actions |
| C180 | C136's model with the best point, the history and the shared parameter of the ranking function | Invariant over the steps for arbitrary options; refinement to C136; utilities of windows by C63 |
| C181 | C137's model with momentum vector, best point and the window of squared derivatives | Induction over batches and over online samples; position of samples in the window modulo its size |
| C182 | C92's model with the matrix built by the option `autonoise` | Posterior characterised by its linear equations with one noise variance per sample; monotonicity of the explained variance in the noise |
| C183 | The calls of `convertNormalNetwork` on C75's model; parameter containers in the order of `_containerIterator`; owners; C11's heap | C75's invariant for the new history, uniqueness of stable sorting, congruence of topological sorting under permutations of the modules |
| C184 | The trainer with the calls of the library as oracles; the unit with all three outputs | Induction over histories of calls; scores as counts of agreement; universal negations |
| C185 | Lists of the class shared by all objects, rows as references | Invariants of runs; average and deviation of columns; universal negations |
| C186 | Learners with module, explorer and data set as identities; truth values of objects with parameters | Induction over all histories of assignments and interactions; universal negations |
| C187 | C86's model with rows of targets; conversion there and back | C86's invariant; commutation of cutting with the row function; universal negations |
| C188 | The topology on the polar maze and task models | Potential (distances) on all states, induction over action sequences; induction over histories for rewards |
| C189 | Data sets whose arrays are objects showing buffers; copy and pickle by `__reduce__` with a memo | Frame and simulation invariants for all programs on both data sets; memo invariant for the copy; universal negations |
| C190 | Verif.Model.Multiline: list objects in a memory, lines referring to them, limits of axes; loops that enlarge axes with fuel | invariant (own lists) and refinement to the expected points by induction over calls; cache invariant for the drawn lines; termination by the Archimedean property |
| C191 | Verif.Model.FitPlot: cutting off, choice and averages of runs as lists, options as a record (means, not medians) | Monotone levels, first positions after cutting off, sums by induction over runs; induction over items for the numbers of evaluations |
| C192 | Verif.Model.Landscape: nested loops that fill arrays, ranges and grids as lists, svd results as arguments, modules as state machines | Loop invariants (induction from the end of lists); invariant of grids over all calls; polynomial identities for ellipses; universal negation by independence of evaluations |
| C193 | Verif.Model.ClientPlayer: lines as lists of characters on the capture game model, pieces delivered by the network as an argument, waiting loops with fuel | Induction over rows and cells (encoding is injective); invariant of the waiting loop for all schedules; non-termination for all fuels |
| C194 | Verif.Model.BbobCollection: a table of the 54 functions (base function and arguments of the transformation) on the models of C74, C147 and C148 | One lemma per kind of transformation, applied to every entry; chords of the logarithm for the asymmetry |
| C195 | Verif.Model.XodeBody: elements as trees, parsers as mutual recursion over them, transformations in a monoid, masses as real numbers | Induction over the size of trees with the state of the parser generalised; induction over the relation of masses |
| C196 | Verif.Model.Variations: figures as records of calls, on the models of subDict and dictCombinations; the order of dictionaries as an argument | Splitting and joining of combinations by induction over the options; permutations |
| C197 | Verif.Model.OdeViewer: the view as a state, callbacks as steps; what is drawn as a set of points; screenshots as a list of file names | Induction over sequences of callbacks; rotations and translations of sets of points; decimal numbers of files |
| C198 | Verif.Model.CubeDrawing: the calls of glNormal and glVertex as lists | Enumeration of faces and edges of the cube; vectors with real coordinates |
| C199 | Verif.Model.SeqValidation: data sets as rows and sequence markers, on the models of modules (C192) and of the validator for arrays | Induction over the list of sequences, with one block of the loop for each sequence |
| C200 | Verif.Model.Cauchy: the sample as a function of the random numbers and of the singular value decomposition | Push-forward of the uniform distribution, by distribution functions; product measures; matrices of two dimensions for the negations |
| C201 | Verif.Model.Renderers: two threads with a lock, each read and write of an attribute a step, all schedules | Invariants of all reachable states (who has the lock, what is left of a call, what the frames show); schedules as witnesses for the negations |
| C202 | Verif.Model.UpdateThreads: the environment and any number of threads, each read, write and packet a step, exceptions as events | Invariants of all reachable states (who has the lock, who is going to set the flag, order of the packets, states older than a reset) |
| C203 | Verif.Model.RendererStart: any number of callers of start, test and start as separate steps, the end of the renderer as an event | Invariants of all reachable states; the negations by running the calls |
| C204 | Verif.Model.OdeUpdates: the environment and any number of threads, each read of a position or rotation a step | Invariants of all reachable states (who has the lock, what has been read, order of the messages) |
| C205 | Verif.Model.UdpThreads: two threads that use one server, each access to a list a step | Invariant of all reachable states (which list is how far, where the loop is); the negation for all lists of clients |
| C206 | Verif.Model.Viewers: the messages as values, texts as the values they are the repr of; the idle functions of two viewers | Induction on the messages |

## 4. Disagreements between code and property

Each line is backed by a theorem that proves the negation on a concrete witness; the corresponding
`_partial` (or suitably restricted) theorem states what holds. The texts are the comments of the theorems.

* `C01_negation_appendLinked`: **C01, negation (1).** A linked append whose second row has the wrong width raises, but its first row has already been stored: the linked fields are left with 1 and 0 rows.
* `C01_negation_setField`: **C01, negation (2).** `setField` on a linked field is accepted with any number of rows.
* `C01_negation_duplicate`: **C01, negation (3).** A name linked twice receives two rows per linked append.
* `C02_negation_convertField`: **C02, negation (convertField).** Converting the element type of a field makes the padding visible: one row was appended, two rows are shown afterwards.
* `C02_negation_negativeIndex`: **C02, negation (negative index).** A negative index is not rejected and reads the padding of the buffer: after three linked appends, `getLinked(-1)` returns a stale copy of row 1 instead of raising or returning the last row.
* `C02_negation_emptyName`: **C02, negation (empty name).** The field named `""` cannot be appended to while another field is linked: the wrong arrays are enlarged and the store fails.
* `C06_negation_negative`: **C06, negation.** A negative index is not out of range for `removeSequence`; `removeSequence(-1)` raises nothing and, instead of removing a sequence, makes the data longer and duplicates rows.
* `C08_negation_fractional_bound`: **C08, negation.** With bounds `(0, 0.5)` the upper bound is truncated to 0: no entry of any row is the upper bound.
* `C09_negation_stale_class`: **C09, negation (1).** Samples added with `addSample` have no class entry until some other call fills it in, and `splitByClass` does not: both parts of the split are empty.
* `C09_negation_histogram`: **C09, negation (2).** With labels 1 and 2 and the number of classes determined from the data, the histogram ranges over 0 and 1: class 2 is not counted and the sum is 1 for two samples.
* `C14_negation_sigmoid_clipped`: **C14 fails for SigmoidLayer in the clipped region**: beyond 500 the forward pass is constant while the backward pass still reports a non-zero slope (in exact arithmetic).
* `C14_negation_softmax`: **C14 fails for SoftmaxLayer** at every input: its backward pass hands the error through unchanged, which is never the transposed derivative of its forward pass.
* `C15_negation_linear`: **C15 fails for LinearConnection's parameters**, at every input with a non-zero entry.
* `C15_negation_fullnotself`: **C15 fails for FullNotSelfConnection's diagonal weights**: they have no effect on the output but receive a derivative.
* `C15_negation_permutation`: **C15 fails for PermutationConnection** with the cyclic shift of three elements.
* `C18_negation_iterCombinations`: **C18, negation.** The product of no ranges has one element, the empty tuple, but nothing is yielded.
* `C18_negation_crossproduct`: **C18, negation.** An empty collection before another one makes `crossproduct` fail instead of returning no combinations.
* `C19_negation_through_destination`: **C19, negation.** With steps `n ↦ n - 1`, destination 1 can be reached from 3 (through 2), but only 2 is reported.
* `C19_negation_adjacent_starts`: **C19, negation.** Of two starts that are destinations only the first is reported.
* `C25_negation_es`: **C25, violated by ES.** An optimizer whose `_additionalInit` evaluates more than the initial point (ES evaluates its whole initial population) ends up with the initial point as best evaluable but with the best evaluation of the population: `setEvaluator` overwrites the former. Here the initial point 0 is reported with fitness 5, the fitness of the mutant 5.
* `C25_negation_stochastic`: **C25, violated by StochasticHillClimber.** It reports its current point, which may be worse than one it has seen: from 3 (value 0) it moves to 4 (value -1) and reports that.
* `C26_negation_late_change`: **C26, violated: changing the direction after evaluations.** `minimize` can be assigned at any time; the objective is then negated but the best evaluation kept is not. A maximiser that has evaluated f(2) = 2 as a minimisation task reports -2 after `minimize` is set to False.
* `C26_negation_second_evaluator`: **C26, violated: second evaluator.** When the evaluator of an opposed optimizer is set again, the stopping value is negated a second time: the task "minimise down to 1" becomes "stop at -1 or more of the negated function's value 1", i.e. the stored goal for the negated objective is 1 instead of -1.
* `C27_negation_maxLearningSteps`: **C27, violated for maxLearningSteps.** With `maxLearningSteps = 2` set by the user `learn()` performs three steps.
* `C29_negation_randomize`: **C29, violated: randomize may disable everything.**
* `C29_negation_returnZeros`: **C29, violated: round trip with returnZeros.** With returnZeros=True `params` has one entry per parameter, but writing takes the values as if only the active ones were given: reading and writing back moves values.
* `C33_negation_after_end`: **C33 after the end: violated.** The deciding move marks its point without updating the bookkeeping: a captured stone is still reported to have a liberty, although no empty point is next to it.
* `C34_negation_refused_moves`: C34, violated once moves are refused: refused attempts are counted as well, so a 5 × 5 game with two stones on the board is declared a draw.
* `C36_negation_open_border`: **C36 without surrounding walls: violated.** The agent walks west out of the maze: its column becomes -1, which is no cell; after some more steps an IndexError is raised.
* `C36_negation_turn_left`: **C36: TurnLeft turns right**, and TurnRight left, whatever the direction.
* `C37_negation`: **C37: violated** for mazes wider than high: in the maze of `TrivialMaze` cells (0, 3) and (1, 0) get the same observation, and in a 4 × 7 maze the free cells (1, 5) and (2, 1) do.
* `C38_negation_draw`: **C38, draws: violated.** A drawn game is counted as won by the second player.
* `C40_negation_online`: **C40, online mode: violated.** With batchMode = False `learn` never changes anything, because the single sample it looks at is treated as the beginning of a sequence.
* `C42_negation_observation`: **C42: violated for observations**: although clipping is on, a sensor outside its limits gives an observation outside [-1, 1].
* `C43_negation_observe`: **C43: violated for repeated observations.** "Any other order raises" does not hold of `integrateObservation`: it never raises, in any state, and the pending observation (and the action chosen for it) is dropped.
* `C44_negation_epochs`: **C44: violated for the number of epochs**: for every `N`, if nothing is NaN and the window of the stopping test is not reached, exactly `N + 1` epochs are trained.
* `C44_negation_initial`: **C44: violated for the parameters before training**: they had error 0, and parameters with error 1 are left. (`maxEpochs = 2`; three epochs are trained.)
* `C44_negation_resume`: **C44: the restored parameters are lost by further training.** The descender keeps its own copy of the parameters, which is not restored: after the run above one more epoch leads from the last parameter 3 to 4, not from the restored 1 to 2.
* `C47_negation_zero`: C47: `removeWorstIndividuals(0)` removes everybody.
* `C47_negation_absent_fitness`: C47: assigning a fitness to an absent individual makes table and set disagree: the sorted list then contains somebody who is not in the population.
* `C48_negation_raw`: C48: for arrays with entries other than 0 and 1 the promise fails: `put` hashes the boolean form but `knn` hashes the raw query, so the very array that was stored is not found.
* `C49_negation_roles`: C49 fails: a module that is both an input and an output module is only an input module in the copy.
* `C49_negation_unsorted`: C49 fails: a network written before `sortModules` has been called is written without its connections and hidden modules, without an error.
* `C49_negation_order`: C49 fails: the copy may have its modules, and hence its vector of parameters, in another order.
* `C49_negation_nested`: C49 fails: if a nested network has a module with the name of one further up (as with two networks made by `buildNetwork`), the connection is attached to the wrong module and reading fails, although all modules of each network have different names.
* `C49_negation_stale`: C49 fails: names that an earlier read has left in the class attribute `modules` are taken for arguments: after a module named `1` has been read, no layer of size 1 can be read.
* `C49_negation_classes`: C49 fails: networks with a Gaussian layer, a table, a partial softmax layer or a Kohonen map can be written but not read.
* `C49_negation_mixture`: C49 fails: a mixture density layer is read back with another size.
* `C49_negation_permutation`: C49 fails: a network with a permutation connection can be written but not read.
* `C49_negation_forget`: C49 fails: the flag `forget` of a recurrent network is lost.
* `C50_negation_single`: C50: the property fails: a dataset with one sequence of any length yields no window.
* `C50_negation_multiple`: C50: and of two sequences of length four only the first half of the first one is kept.
* `C51_negation_desired`: C51: without a desired value the environment version is not an involution: a target of `-1e-10` appears.
* `C51_negation_translate_base`: C51: translating changes the base's `xopt` as well (it is the same array).
* `C51_negation_translate_twice`: C51: after a second translation of the same base both translated functions report the same wrong point: each function takes there the base's value at a point shifted by the other's offset.
* `C51_negation_rotate`: C51: rotating the bowl around `(1, 0)` by a quarter turn reports `(0, -1)`, where the rotated function has value 4 instead of 0.
* `C52_negation_lstm_flat`: C52 fails for LSTM layers when there is no hidden layer: the construction stops with an exception although nothing is wrong with the arguments.
* `C52_negation_lstm_deep`: C52 fails for LSTM layers when there are several hidden layers: the interpreter is asked to exit.
* `C53_negation`: **C53, negation.** Two unlinked fields, `a` with two rows and `b` with one: `len` is 1, although the longest field has 2 rows (the code takes the field whose NAME is largest).
* `C55_negation_semilinear_clipped`: **C55**, below the clipping bound `semilinear` is constant but `semilinearPrime` is not zero.
* `C56_negation`: **C56** is false: after one `activate`, the first `backActivate(1)` returns the input error 1, which is the derivative of the (identity) network, and the second returns 3, because the output errors of inner modules accumulate.
* `C57_negation_derivatives`: **C57** is false for derivatives: in a copy, what a component's backward pass writes into its derivatives does not show in the network's derivative vector, which is what the trainers read. (In the original it does.)
* `C60_negation_binArr2int`: **C60, negation.** For other lengths the number is not the one written by the bits: the single bit 1 gives 128.
* `C62_negation_constant`: **C62, failure.** When all individuals agree in an objective and there are at least three of them, the computation divides by zero.
* `C63_negation_tournament`: **C63, tournament selection: violated.** `TournamentSelection` counts the winner's position inside the tournament instead of its position in the population: with tournaments of size `k` no individual at position `k` or later is ever selected.
* `C65_negation_shared`: **C65, violated**: the parameters the original computes with are overwritten, because both share the container.
* `C67_negation_fraction`: **C67: violated for fractional rewards**, which are truncated: from an empty table and rewards of 1/2 nothing is learnt.
* `C67_negation_boundary`: **C67: violated at the boundaries of sequences.** Two sequences of one sample each contain no transition, but Q(λ) learns from the last sample of the first to the first of the second.
* `C68_negation_zero_discount`: **C68: a discount of 0 is no discount**: the total is the plain sum of all rewards.
* `C70_negation_keep_all`: C70: asking selection to keep everybody removes everybody.
* `C70_negation_diverges`: C70: with no survivor, reproduction never ends, whatever the fuel.
* `C70_negation_small`: C70: hence one generation with the default selection never ends when the sub-populations have fewer than four members.
* `C71_negation_sizes`: C71: with sub-populations of different sizes the assembly fails with `ValueError` as soon as a later one is smaller than the first.
* `C72_negation_high_dimension`: C72: with more than 24 dimensions no insertion ever succeeds.
* `C73_negation_save`: C73: saved parameters can never be loaded again, whatever the number formats: `save` does not end its lines, so that `load` finds no parameter line.
* `C73_negation_mode`: C73: and even a correct file that starts with the line `x` is read as mean/std parameters, because the line read includes its end.
* `C74_negation_rosenbrock`: C74 fails for Rosenbrock's function in one dimension, which it accepts: it is zero everywhere.
* `C74_negation_schwefel`: C74 fails for Schwefel's function: the last coordinate never matters, so there are many minima.
* `C74_negation_boundedLinear`: C74 fails for the bounded linear function: the reported optimum (the origin) is no minimum, and evaluating changes the caller's array.
* `C74_negation_weierstrass`: C74: Weierstrass' minimum is not the only one.
* `C74_negation_buche`: C74: evaluating the Büche-Rastrigin function changes the caller's array.
* `C74_negation_funnel`: C74 fails for the funnel function: its single minimum is at `2.5`, but it reports the origin.
* `C74_negation_griewankRosenbrock`: C74 fails for the Griewank-Rosenbrock function: the minimum of value zero is at the point of ones, but it reports the origin, where the value is larger.
* `C74_negation_schwefel213`: C74 fails for Schwefel's problem 2.13: the reported optimum is the origin, whose value need not be zero.
* `C74_negation_branin`: C74 fails for Branin's function: the reported optimum (the origin) is much worse than the documented one.
* `C76_negation_single`: **C76 violated outside of recurrent networks**: a new LSTM layer by itself, or in a feed-forward network, has buffers of one row. It can be activated, but `backActivate` always raises an IndexError because it reads the row after the last one (`_isLastTimestep` compares the offset with a `maxoffset` that is already one larger).
* `C76_negation_stale`: **C76 needs the reset**: after a sequence has been run forward and completely backward the offset is back at 0, but a shorter second sequence then reads the first one's errors beyond its own end and gets a different input error than after a reset.
* `C77_negation_negative`: **C77 violated for arrays that are no probabilities**: only the sum is checked. `[2, -1]` is accepted, and index 0 is always drawn.
* `C78_negation_sde`: **C78 violated for state-dependent exploration**: its constructor creates one parameter per action, but the backward pass wants one per action and state: it raises a ValueError whenever the state has more than one number.
* `C79_negation_small`: **C79 violated for small populations**: when fewer than two parents are selected (as with the default `topProportion` 0.2 and less than ten individuals) there are no children to draw from, and the first generation raises a ValueError.
* `C79_negation_all_elite`: **C79 violated when everybody is elite**: if the elite is as large as the population, as many children are added on top: the population has twice its size.
* `C80_negation_budget`: **C80 violated, budget**: a noisy strategy without elitism does `mu` evaluations more per generation than the `batchSize` by which the optimizer decides whether the evaluation budget allows another step.
* `C80_negation_division`: **C80 violated in Python 3**: `self._popsize/self.mu` is a float, and multiplying a list by it raises a TypeError in every learning step.
* `C81_negation_social`: **C81 violated: the social attraction goes to a place nobody evaluated.** The particles of `PSO.two` maximise `-x²`. The best position ever found is 0, where particle 0 is. Particle 1 at 4 is nevertheless drawn to 1, the place to which particle 0 has just moved: with `sociality·r₁ = 1` and no memory it ends at 1 instead of 0.
* `C82_negation_batch_weightdecay`: **C82 fails for weight decay in batch mode**: `BackpropTrainer(..., batchlearning=True, weightdecay=d)` trains exactly as with no decay, for every module, dataset and state.
* `C82_negation_changed_parameters`: **C82 fails for parameters changed between epochs**: the descender works on its own copy of the parameters, taken when the trainer was made. However the parameters `s.1` were changed since (by `randomize()`, by another trainer, by loading a file), a batch epoch puts the network near the old copy `d.values`: with learning rate and momentum zero it restores the copy exactly.
* `C82_negation_mse`: **C82 fails for the name of the measure**: what `testOnData()` (documented as the MSE) returns is half the mean squared error: with every output off by one it is 1/2.
* `C83_negation_minimize`: **C83 violated when minimising**: FiniteDifferences always climbs. Asked to minimise a linear objective (exactly measured, as in `C83_exact_partial`), every step with a positive learning rate makes the current point strictly worse.
* `C83_negation_offset`: **C83 violated for objectives that are not 0 at the current point**: the values are not compared with the value of the current point. On a constant objective, whose gradient is 0, the point is moved by `learning rate * constant / displacement`.
* `C83_negation_global`: **C83 violated by "global" exploration**: as soon as a pair of evaluations is on average better than the baseline (and the best evaluation is too), the step raises an AttributeError.
* `C83_negation_rprop_sigma`: **C83 violated for the standard deviations of PGPE with rprop**: maximising the linear objective `x` from 0 with the default settings of rprop and perturbations of half a standard deviation, the standard deviation falls from 2 below 0 within twelve steps; the next step raises a ValueError.
* `C84_negation_rows`: **C84 violated**: a stored row is not the score of its action. Whenever the derivatives are not all 0 before an interaction, the row differs from the interaction's own score; they are set to 0 only when the network is built.
* `C84_negation_direction`: **C84 violated by REINFORCE**: `learn` moves the parameters against the estimate of the gradient of the reward. For every history with complete episodes, as long as the vector is not rescaled, the change of the parameters is minus the learning rate times the estimate, so that it points downhill.
* `C84_negation_rescale`: **C84 violated for large negative components**: the guard against "too large values" looks at the largest component only, not at absolute values: for every bound there is a gradient that is passed on unchanged although all of its components exceed the bound in size.
* `C85_negation_slice`: **C85 violated by sliced connections**: a connection of the second of two input neurons to the three hidden neurons. Its first parameter leads from input neuron 1 to hidden neuron 0, its second to hidden neuron 1, but both are given to hidden neuron 0, and hidden neuron 2 has none.
* `C85_negation_peepholes`: **C85 violated by layers with more than one own parameter per neuron**, like LSTM layers with peepholes (three per cell): sorting raises a KeyError, for every such network, whatever else it contains, unless it has components that make it fail earlier.
* `C85_negation_gates`: **C85 violated by layers with several inputs per neuron**, like the gate layers (two): a full connection into such a layer raises a KeyError.
* `C85_negation_other`: **C85 violated by other connections with parameters**, like linear or shared ones: sorting fails.
* `C86_negation_last`: **C86 violated by the last sequence**: it counts as a sequence for all other methods, but a stratified split never puts it into any of the sets. A dataset with a single sequence is split into empty sets, for every sequence and all fractions.
* `C86_negation_unassigned`: **C86 violated without assignClasses**: the classes of samples added since the last call of `assignClasses` are missing; asking for the class of the last sequence, or for all classes, raises an IndexError, whatever the history before.
* `C86_negation_failed_removal`: **C86 violated by a failed removal**: asked to remove a sequence that does not exist, `removeSequence` raises an IndexError as it should, but leaves the class field linked: from then on every `addSample` raises an AssertionError.
* `C87_negation_single`: **C87, one old point: violated.** "Never use only old samples" (importancemixing.py:19): with a single old point that passes the test, the function returns that point alone and no new one, whatever the forced refresh rate below 1.
* `C88_negation_mixing`: **C88, importance mixing: violated.** With `importanceMixing` switched on and the other settings left alone, `learn` raises an AttributeError in its second step: the old density reads `_allDistributions`, which only exists with `storeAllDistributions`.
* `C88_negation_mixing_points`: **C88, importance mixing with stored distributions: violated.** The points that are tested for reuse are not those of the last batch: their fitnesses take the place of their coordinates. Here the center is 2, the last batch is the single point 3 with fitness 7; in sample coordinates it is 1, and the point tested is 5.
* `C89_negation_scale`: **C89, scale: violated.** The covariance update adds the outer products of the selected steps without dividing them by the step size (cmaes.py:69, 92), unlike the algorithm it transcribes. Scaling the problem, the start and `initStepSize` by the same factor `a ≠ 1` therefore does not scale the run: already after the first step the covariance matrix is another one, for every objective and all draws that are not zero.
* `C90_negation_none`: C90 fails for `dim = 0`: all components are returned instead of none, because `eigval[:-0] = []` removes nothing.
* `C90_negation_column`: C90 fails for data with one column: `cov` gives a number and `eig` refuses it.
* `C90_negation_order`: C90 does not extend to the order of the components: they come by falling position in the output of `eig`, not by falling variance. When `eig` lists the eigenvalues in falling order, the weakest of the chosen components comes first.
* `C90_negation_ppca`: C90 fails for `pPca`: the directions need not be orthogonal nor of length 1. With as many components as columns (and data that do not lie in a smaller subspace) the random starting matrix itself is returned after one round.
* `C91_negation_zero`: C91 fails for `k = 0`: one seed is returned.
* `C92_negation_untrained`: C92 fails without training samples: `testOnArray` returns zeros, as many as the test points of the constructor, whatever the array and whatever mean was set.
* `C92_negation_stale`: C92 fails for `draw` when the hyper parameters were changed after the last calculation: the old distribution is used. Here the sample (0, 1) was given, the prediction at 0 calculated, and the second hyper parameter changed from 2 to 1: `draw` has the mean 4 / 4.001 instead of 1 / 1.001.
* `C93_negation_reset`: Discrepancy: `reset` starts the count of the schedule again but keeps the reduced learning rate, so that after a reset the rates are not those of a new learner but smaller, whatever happened before.
* `C93_negation_boltzmann`: Discrepancy: actions whose values are more than 20 temperatures below the best are all equally probable, however much they differ.
* `C93_negation_lspi`: Discrepancy: with the default `randomInit` the matrix and the vector of LSPI start from noise that is never removed, and so the weights do not solve the equations. Here with one state, one action, no discount and the reward 1 the value found is 1/2.
* `C94_negation_episodes`: Discrepancy: newEpisode does not forget the last step, so that in every further episode the learner is also told a transition that never happened: from the last step of the episode before to the first of the new one.
* `C94_negation_decay`: Discrepancy: the temperature and the exploration rate decay only where the agent does not learn online; while it does, they stay at their initial values for ever.
* `C94_negation_batch`: Discrepancy: learning from the history after an episode, a learner without `passNextAction` is first told a transition from the last step of the history to its first, because the agent still holds its last observation; then the transitions of the episode.
* `C94_negation_batch_next`: Discrepancy: learning from the history is impossible for the learners that want the next action (SARSA, LSPI): after any episode it raises TypeError.
* `C95_negation_stateProp`: Discrepancy: `stateProp` is documented to restrict the states in which transitions start, but it restricts those in which they end. Here the only transition of state 0 leads to state 1; sampling state 0 should see it, but nothing is seen.
* `C96_negation_last`: Discrepancy: the last experience of each sequence is dropped, so that the rewards at the end of the episodes never reach the learner. Where only the goal is rewarded, nothing is learned.
* `C97_negation_slip`: **C97, negation (FourByThreeMaze slips).** An action north or east is executed only with probability 7/10, and with probability 1/10 the agent goes in the opposite direction: `action - a % 4 != 2` is meant to exclude the opposite direction, but `%` binds more tightly than `-`, so that for actions 0 and 1 nothing is excluded.
* `C97_negation_bad_spot`: **C97, negation (the bad spot of FourByThreeMaze).** The documented absorbing spot with negative reward does not exist: whatever happens to the task, its reward is 1 on the goal and -0.04 everywhere else, never -1; and on the spot (2, 4) the episode is not finished and the agent can walk away. (`bad` is only ever set to False.)
* `C97_negation_tmaze`: **C97, negation (TMaze rewards).** After the wrong choice at the junction, the total is penalised by -0.1, but the reward an agent is given afterwards is 4, as for the right choice: the first call of `getReward`, within `performAction`, puts perseus on the goal, and the call made by the experiment then finds him there.
* `C97_negation_shuttle_forward`: **C97, negation (ShuttleDocking forward).** The action Forward never moves the shuttle: it turns it around, in every reachable state. (`_forward` asks the maze to TurnAround.)
* `C97_negation_shuttle_total`: **C97, negation (ShuttleDocking penalties and totals).** Backing into a wall is not penalised: right after a backup that was carried out, `bang` is False, even if the shuttle hit the wall; and the total reward is 0 after every history, although the shuttle may have docked (reward 10) or banged (reward -3): `performAction` does not add the reward.
* `C97_negation_shuttle_black`: **C97, negation (ShuttleDocking observations).** The third of the five observations ("black": in space, seeing nothing) never occurs.
* `C97_negation_tiger`: **C97, negation (TigerTask totals).** The total reward is 0 after every history: `performAction` does not add the reward.
* `C98_negation_linear`: **C98, negation (linearized environment).** In CartPoleLinEnvironment the cart does not move, whatever its velocity and whatever force is applied: apart from the noise its position stays the same at every step, while its velocity grows with the position, the angle with the scaled angular velocity and the angular velocity hardly with the angle. (`sensors * A` multiplies by the transposed matrix.)
* `C99_negation_min`: **C99, negation (two poles, one fallen).** In tasks with two poles a fallen pole costs nothing as long as the other one is upright and the cart in the middle: the episode ends with reward 0 instead of -2 (N - t), and in DiscreteBalanceTask even with reward 1. (`min(angles)` asks for one upright pole only.)
* `C99_negation_nonmarkov`: **C99, negation (one pole without velocities).** With NonMarkovPoleEnvironment the position of the cart plays no role: wherever the cart is, end and reward are the same; instead the episode ends when the pole moves too fast. (`getCartPosition` returns the second of the four sensors, the angular velocity.)
* `C99_negation_nonmarkov_double`: **C99, negation (two poles without velocities).** With NonMarkovDoublePoleEnvironment the episode does not end when the cart leaves the track, nor when the second pole falls (up to 2.4); it ends when the first pole moves at more than 0.7.
* `C99_negation_delayed`: **C99, negation (two poles, delayed rewards).** With DoublePoleEnvironment the reward added for an action, and whether the episode is over after it, do not depend on the action: `performAction` does not update `sensors`, which both use.
* `C99_negation_outdim`: **C99, negation (two poles, observation).** BalanceTask cannot observe DoublePoleEnvironment: `getObservation` always raises, because the environment does not define `outdim` (it is spelled `ooutdim`), so that there is one pair of limits for six sensors.
* `C99_negation_carts`: **C99, negation (two carts).** The two poles of DoublePoleEnvironment do not stand on one cart: with the first pole upright and the second leaning slightly to the right, one step without force leaves the first cart where it is and moves the second one to the left. (Both start in the middle, as after a reset; the second cart's position is the one reported.)
* `C99_negation_cost`: **C99, negation (linearized task).** LinearizedBalanceTask rewards deviation: its reward is never negative, and it is 0, the least, exactly when the pole and the cart are at rest in the middle and no force is used.
* `C100_negation_total`: **C100, negation (totals).** The total reward is not that of the episode: starting a new episode keeps the total of the earlier ones. An episode of MountainCar that reaches the goal adds 1, one that does not adds nothing.
* `C100_negation_rewards`: **C100, negation (rewards).** An agent that asks for the reward after each action until the episode is over is rewarded three times for reaching the goal, although the total grows by 1: the reward is repeated for the two actions after the goal.
* `C101_negation_energy`: **C101, negation (energy).** The simulated accelerations do not belong to two arms: without friction the energy should change by torque times the velocity of the joint only, but along every motion with the accelerations of the simulation it changes at another rate whenever the second arm is neither stretched nor folded and both joints move. (The sign of the Coriolis term in `phi1` is wrong: `theta2_dot - 2 * theta1_dot` should be `theta2_dot + 2 * theta1_dot`.)
* `C101_negation_height`: **C101, negation (height).** The goal is not about the tip of the second arm: with both arms pointing straight up, the tip at its greatest height 2, the computed height is 0 and the goal 1.5 is not reached; with the second arm folded back to the fixed point it is 2 and the goal is reached. (The second arm's own angle is used as if it were measured from hanging down.)
* `C101_negation_observation`: **C101, negation (observation).** In SingleArmSwinger the observation does not contain the angle of the arm: the observations of two states are the same whenever the velocity is, and their first entry is always 0.
* `C102_negation_division`: **C102, negation (Python 3).** With true division every action raises a TypeError, in XORTask in its default order and in XORChainTask: the observation is an array of floats, which have no `^` and `&`.
* `C102_negation_reset`: **C102, negation (evaluation).** The tasks cannot be reset, so that they cannot be used as fitness evaluators (`f` calls `reset`): there is no `env`.
* `C102_negation_discount`: **C102, negation (discount).** A discount factor has no effect: `performAction` does not count the samples.
* `C102_negation_draws`: **C102, negation (two draws).** With a stochasticity strictly between 0 and 1 the reward added to the total and the reward the agent is told for the same action are drawn independently and can differ.
* `C103_negation_length`: **C103, negation (longer episodes).** `setMaxLength` does not adjust the scale of the rewards: a task made for one step and then set to 30 steps gives a total above 100, with full thrust, a straight rudder and no noise.
* `C103_negation_drag`: **C103, negation (drag).** The drag depends on the sign of the heading: on a heading more than 20 degrees west of north the ship gains speed with the engine off, the rudder straight and no noise, whatever its speed; on the opposite heading it loses speed. (`drag = 5 * h + ...` without an absolute value.)
* `C104_negation_pass`: **C104, passing: not excluded.** "Pass moves are forbidden", but a move to an occupied point is only ignored and the turn goes to the other player: if both players insist on such a move the game never ends.
* `C105_negation_scale`: C105, negation of "the scale goes from -1 to (the highest handicap + 1)" (comment, handicaptask.py:114): a player who loses all games gets less than -1, whatever the settings.
* `C105_negation_decrease`: C105, negation of "If <20% decrease it" and of "if the system fluctuates between H and H+1 ... assert H+0.5" (docstring, handicaptask.py:18-23): the handicap is not decreased from 1 to 0. A player who wins all games without and loses all games with a handicap plays all of the maxGames games, all but the first minEvals of them with one handicap stone, and gets less than 0.
* `C105_negation_score`: C105, negation of "the score = 2 * #handicaps + proportion of wins at that level" (docstring, handicaptask.py:24): on a board of size 5 a player who wins all games, each after 10 moves, reaches the maximal handicap 8 and gets 9.0001, not 17.
* `C105_negation_settings`: C105, negation for degenerate settings: with maxGames = 0 or minEvals = 0 every evaluation is a KeyError.
* `C106_negation_default`: **C106, negation of "the score depends on: ... play with fixed starting positions ... play with noisy moves" (docstring, relativetask.py:13-20).** With the default options, on every board of size 5 or more, a single game is played, from the empty board, the first player being black, without noise for networks; its value is the score.
* `C106_negation_antisymmetric`: **C106, negation of "(anti-symmetric)" (docstring, relativetask.py:13).** An anti-symmetric score of a player against itself would be 0. With the default options, on every board of size 5 or more, the score of a deterministic player against itself is at least 1/2 or at most -1/2.
* `C106_negation_noise`: **C106, negation: evaluations are not independent.** Temperatures start at the minimum only for networks. For players with an adjustable share of random moves, on boards of size 3 or 4 with the default options, a first evaluation without random moves leaves the players with a share of 1/51, with which the next evaluation begins.
* `C106_negation_small`: **C106, negation: no first stones on small boards.** On boards of size 3 or 4, although all games are to begin with a given first stone (presetGamesProportion = 1), none does.
* `C106_negation_tiny`: **C106, negation: boards of size 2.** There the task raises a ZeroDivisionError after its first game, because there are no first stones.
* `C106_negation_draw`: **C106, negation for draws.** In RelativeGomokuTask a draw counts as a defeat of the first player, so the score is not anti-symmetric: two players whose games end in a draw get -1/2, in whatever order they are given.
* `C107_negation_nested`: **C107, negation (slices of slices).** A slice of a slice, which the constructor means to handle, always raises an AttributeError: slices have no attribute `inSliceFrom`.
* `C107_negation_bounds`: **C107, negation (bounds).** The upper bounds of a slice are not checked: slices that lie completely behind the end of the module are accepted.
* `C107_negation_remainder`: **C107, negation (remainders).** If the number of inputs is no multiple of the number of units of the grid, the view is accepted nonetheless, and the last input of the layer is in no slice. Here for one dimension.
* `C109_negation_length`: **C109, negation (sequences of length 1).** A network for sequences of length 1 cannot be built: it raises an AssertionError, for all sizes, although two states and an output are defined for it. (Without a sequence length the AssertionError is documented.)
* `C110_negation_full`: **C110, negation (window as large as the input).** A window that covers the whole input has one position, but the network cannot be built: the slice of the hidden layer is the whole layer, which raises an AssertionError.
* `C110_negation_large`: **C110, negation (window larger than the input).** Windows that are too large are not refused, if larger by at least two: the network can be built and sorted; it has (w - n - 1)² outputs, which have nothing to do with its inputs (they are all g(0), the transfer function of the output layer at 0).
* `C111_negation_one`: **C111, negation (window of one cell).** A window of one cell needs no cells around the board, but the network cannot be built: the cross product with an empty list raises a TypeError, for all sizes of the board.
* `C111_negation_board`: **C111, negation (board of one cell).** A board of one cell cannot be handled either: the slice for its only row is the whole input layer, which raises an AssertionError.
* `C113_negation_merged`: **C113, negation (merged states).** In every grid some units have predecessors in both dimensions but get the sum of their states for the first forget gate, and nothing for the second forget gate: in the first swipe, all units of the last column except for the first row. What comes in at the second forget gate of such a unit does not matter.
* `C113_negation_dims`: **C113, negation (dimensions).** Only grids of two dimensions can be used: for all others an AssertionError is raised, because the mesh of hidden units always has four swipes.
* `C114_negation_invert`: **C114, negation (inversion).** For all other numbers of units the inverse is not the machine in the opposite direction: weights are copied without being transposed. For every machine with at least two visible and two hidden units, the inverse uses, from hidden unit 1 to visible unit 0, the weight from visible unit 1 to hidden unit 0; so there are machines where visible unit 0 has no influence on any hidden unit, but is reconstructed from hidden unit 1.
* `C115_negation_wiring`: **C115, negation (wiring).** For machines with at least two visible and two hidden units, updates are applied to the wrong weights: after one iteration on one row without weight decay, the weight from visible unit 1 to hidden unit 0 has changed by the difference of the correlations of visible unit 0 and hidden unit 1 (times the rate), whatever visible unit 1 and hidden unit 0 were.
* `C116_negation_bernoulli`: **C116, negation (Bernoulli layers).** A unit of a Bernoulli layer with input `p` between 0 and 1 has the output 1 with probability 1 - p, and 0 with probability p: the opposite of what its input says, unless this is one half.
* `C117_negation_train`: **C117, negation (deep belief networks).** Training a deep belief network raises an exception for every network, whatever its layers and their names are.
* `C119_negation_wrapper`: **C119, negation (wrappers).** The genome that a NetworkWrapper gives does not bundle all input weights of the LSTM neurons: of a connection with `n` inputs it holds the first `4 * dim` weights only, so that all others, as the last one, are missing if there is more than one input.
* `C120_negation_short`: **C120, negation (short sequences).** A data set with a sequence that is too short for a washout part, or a training part, cannot be used: the evaluation raises an exception.
* `C120_negation_default`: **C120, negation (default ratio).** A trainer that is not given a `wtRatio` cannot train: its evaluation uses a default that is a pair of numbers, where one number is needed, and raises an exception for every network and every data set.
* `C122_negation_direction`: **C122 violated: the wrong direction.** In whatever way the user sets `minimize`: an individual that is better than some other one in all objectives is *not* reported. The optimizer turns functions to be minimised round (`mustMaximize`), but the fronts are made of the smallest values.
* `C122_negation_elitism`: **C122 violated: without elitism** the first generation raises a TypeError.
* `C122_negation_bounds`: **C122 (and C79) violated for the library's own functions**: a function environment has the number 5 as its default bound, and every genetic algorithm (also `GA`) raises a TypeError when it is constructed for one, whatever the dimension.
* `C122_negation_constraints`: **C122 violated: constraints are ignored.** With the default direction (functions are to be minimised) the constrained algorithm reports the front of *all* individuals, whatever their feasibility: the function turned round always says that the last point was feasible.
* `C122_negation_elite`: **C122 violated: the elite is not the best.** If fewer individuals are elite than are parents, the elite are arbitrary parents (the first ones of a set in its order of iteration): an individual that beats all others is lost, and then a worse one is reported.
* `C122_negation_crowd`: **C122 violated: large fronts.** If the front is larger than the number of parents, members of it are dropped, and later an individual is reported that one of these beats: here four individuals form a front, the inner ones are dropped, and `[6, 6]` is reported although `[5, 4]` was evaluated.
* `C123_negation_violation`: **C123 violated: the violation of constraints** (the absolute value of the sum, C21) also counts constraints that are met. Of two infeasible points the preferred one can be farther from being feasible, in every constraint: here the sum is 0.
* `C123_negation_osy`: **C123 violated: Osyczka and Kundu.** One constraint is not the published one: the point (5, 1, 5, 0, 5, 0) is Pareto optimal in the published problem (it has the largest value of the first objective), but is not feasible here.
* `C124_negation_large`: **C124 violated: more than 110 atoms.** The desired value, which optimizers read to decide when to stop, does not exist: the table has no entry (`KeyError`).
* `C125_negation_accumulate`: **C125 violated: accumulation (default).** Each backward pass divides the sum of all derivatives by the variance, also what was accumulated before: the derivatives of the samples do not add up, unless the standard deviation is 1 or there were none before.
* `C125_negation_disabled`: **C125 violated: disabled layers are not transparent for errors.** The backward pass ignores the error of the output: after a disabled layer, the error of the input is 0 whatever error arrives, so that nothing before the layer is trained, and the parameters get a derivative although they had no influence.
* `C125_negation_separate`: **C125 violated: separate sigmas.** In whatever way `autoalpha` is set, the errors of the input and the derivatives of the parameters do not belong together: one of them is the exact gradient of the log-likelihood and the other one is the gradient times the variance. (The condition is inverted for the derivatives; moreover they replace what was accumulated.)
* `C126_negation_density`: **C126 violated: targets of more dimensions.** The function `gaussian` is not the density, but has the factor `s ^ (d - 1)` too much. The error (here for one Gaussian) is not the negative log-likelihood: larger standard deviations are rewarded.
* `C126_negation_deviations`: **C126 violated: gradient for the standard deviations.** The output error lacks the derivative of the exponential function: the exact derivative with respect to the activation is the given one times the standard deviation.
* `C127_negation_partial`: **C127 violated: softmax over slices.** The outputs of a slice do not sum to 1: the normalised values are thrown away. For inputs that are not negative and slices of at least two units, the sum is greater than 1.
* `C128_negation_full`: **C128 violated: the full map.** With `outputFullMap` the module never writes anything to its output buffer: the output is zero for every input.
* `C129_negation_endless`: **C129 violated: without suicide** a game on a board with one point never ends: all moves are refused.
* `C129_negation_gibbs`: **C129 violated: deciding players that are not greedy (the default)** can fail with an AssertionError: as soon as one point is occupied, there is a positive probability that an illegal position is drawn (in exact arithmetic, and very small by `C129_gibbs_partial`: a matter of principle).
* `C129_negation_wide`: **C129 violated: Go-Moku on wide boards.** The indices are computed with the number of rows: positions in a column beyond it are never chosen, whatever the module says.
* `C129_negation_tall`: **C129 violated: Go-Moku on tall boards.** If there are more rows than columns and the last point is empty, every move raises an IndexError.
* `C130_negation_label`: **C130 violated: samples without features.** For a line that has a label only (all features are zero), the label is taken for the number of a feature: if it is larger than all numbers of features, all samples get as many entries as the label says.
* `C130_negation_order`: **C130 violated: order of features.** If a line lists feature 2 before feature 1, the value of feature 1 is stored as that of a third feature.
* `C130_negation_blank`: **C130 violated: blank lines**, such as one at the end of the file, raise an IndexError in both loaders.
* `C130_negation_reload`: **C130 violated: a second file.** When an object loads another file, the number of samples counts both files, although the fields hold those of the second only, and classes that occur only in the first file stay in the histogram.
* `C130_negation_classes`: **C130 violated: the number of classes** reported by `getNbClasses` after loading a sparse file is 0.
* `C130_negation_targets`: **C130 violated: missing targets.** If a line of the targets is zero or missing, the label of the line before is used again, without any warning: for one line of targets, all further samples get its label.
* `C131_negation_history`: **C131 violated: recurrent modules.** Copies share one history: if two copies are run in turn, the second one is influenced by the inputs of the first one.
* `C131_negation_derivs`: **C131 violated: derivatives.** Also for modules without memory, the derivatives are shared: those read from a copy include what was computed with another one.
* `C132_negation_unknown`: **C132 violated: unknown arguments** (such as misspelt ones) are not refused but ignored.
* `C133_negation_masks`: **C133 violated: inverse searches on MaskedParameters** never change a mask: all mutations of all steps are parameter mutations.
* `C133_negation_exception`: **C133 violated: exceptions in inverse searches** leave `mutate` and `topologyMutate` exchanged, for all objects of the class in the program.
* `C133_negation_budget`: **C133 violated: the budget with a noisy evaluator.** A step then re-evaluates the best one, with a local search of its own, but the search reckons with one: the limit can be exceeded by `localSteps`.
* `C134_negation_mse`: **C134 violated: the mean squared error**, which `evaluateMSE` and `evaluateModuleMSE` are documented to return, is twice what they return.
* `C134_negation_history`: **C134 violated: samples without sequences.** On a SupervisedDataSet, whose samples are independent, a recurrent module is not reset between the samples: its error depends on their order.
* `C135_negation_max`: **C135 violated: the maximal number of epochs** is always exceeded, by up to `epoinc` epochs.
* `C135_negation_default`: **C135 violated: the default.** `convergence = 0`, for which convergence is not to be checked according to the documentation, ends the training after the first check if there is a test set.
* `C135_negation_validation`: **C135 violated: validation without a test set** always fails, after the whole training: the best weights are unknown.
* `C135_negation_classifier`: **C135 violated: classifiers that are always wrong.** If no test sample is classified correctly at any check (an error of 100 per cent), a classifier with a validation set fails in the same way.
* `C135_negation_saved`: **C135 violated: saved curves lack the last check.** Of a training curve with `n + 2` entries in each column, the entries with numbers `1` to `n` are written.
* `C135_negation_unsaved`: **C135 violated: curves without a test set** cannot be saved after more than one check.
* `C136_negation_start`: **C136 violated: the initial point** is not where the search starts: the whole distribution, now and after any steps, is the same for all initial points.
* `C136_negation_shift`: **C136 violated: the anticipated mean shift.** The option `useAnticipatedMeanShift` has no effect at all: in every step the shift that is added is zero, because it is computed from the center and the center itself.
* `C136_negation_diagonal`: **C136 violated: units with `diagonalOnly`.** Here sigma is used as a standard deviation when samples are drawn, but updated with squared distances as if it were a variance: with other units (in which the same sample is drawn) the update gives another distribution.
* `C137_negation_batch`: **C137 violated: batches of VES.** Its update, which is to be divided by the size of the batch according to the comment in the code, is not: if every sample is repeated, it is multiplied.
* `C137_negation_pdf`: **C137 violated: negative densities.** The determinant can become negative, and with it the densities: here in one step with a learning rate of 1 from the identity, with two samples.
* `C137_negation_start`: **C137 violated: the initial point** is not where the search starts.
* `C138_negation_settings`: **C138 violated: settings.** The learning rates for scale and covariance, the size of the batch and the kind of baseline that the user sets have no effect: they are overwritten.
* `C138_negation_one`: **C138 violated: one dimension.** Every step fails (`ZeroDivisionError`).
* `C138_negation_variance`: **C138 violated: the stopping criterion.** The search is to end when the largest variance is below the cutoff of 1e-20, but the number that is compared is not the largest variance: there are distributions (for example in two dimensions) whose variance in every direction is below the cutoff while that number is still above it.
* `C139_negation_temperature`: **C139 violated: temperature.** The minimal reward is a bound for single rewards, but returns are compared with it. If the bound is negative, `tau` can become negative although all rewards respect the bound (here after one episode with two steps, and discount 0.95); with a negative `tau` the learner gives higher importances to episodes with smaller returns.
* `C139_negation_equal`: **C139 violated: equal returns.** If all episodes of a batch have the minimal reward as return (for example no reward was found, with a minimal reward of 0), there is no new `tau`: it is infinite.
* `C139_negation_empty`: **C139 violated: empty episodes.** If the task is finished at once in one of the episodes, the batch fails (`ZeroDivisionError`).
* `C139_negation_learn`: **C139 violated: learning.** `learn` fails for every positive number of batches (`AttributeError`), before the first batch: the trainer has no attribute `momentumvector` (its gradient descent has).
* `C139_negation_momentum`: **C139 violated: momentum.** The momentum the user sets is handed to the trainer as decay of the learning rate: the descent has no momentum, and a learning rate that is multiplied by it in every step.
* `C140_negation_equal`: **C140 violated: equal arguments of different types.** A memoized function can return something else than the function: `1` and `True` compare as equal.
* `C140_negation_unhashable`: **C140 violated: lists as arguments.** According to its comment the decorator provides for dictionaries and lists, but every call with one of them among the arguments fails (`TypeError`), whatever the function does.
* `C140_negation_percent`: **C140 violated: above 100 percent.** A single output compared with two targets gives up to 200 percent.
* `C140_negation_utest`: **C140 violated: direction of the U-test.** It is to return the confidence that the values of the second group are higher, but if all of them are, the result is below 1/2 (and above it if all of them are lower).
* `C140_negation_names`: **C140 violated: names.** The names are not unique if objects are copied, or if a name that was given by the user is generated later.
* `C141_negation_blocks`: **C141 violated: blocks of other shapes.** The numbers of rows and columns of the result are exchanged: whenever there is a result, it has as many rows as the matrices of the first row have columns. A single matrix that is not square is refused (`ValueError`).
* `C141_negation_binary`: **C141 violated: binary numbers.** For all other lengths the number is multiplied by a power of 2, so that arrays of different numbers (here 1 and 10 in binary digits) are not told apart.
* `C141_negation_linscale`: **C141 violated: scaling to an interval.** The array is to be scaled to the interval, but its largest value `M` becomes the upper end only if the largest and the smallest value differ by 1; if they differ by more, values end up outside of the interval.
* `C142_negation_initial`: In mogpuremax.py the constructor does not transform the initial `alpha`, so that before the first learning step the weights sum to more than one, and, whatever the number of Gaussians, a sample is always drawn from one of the first two.
* `C142_negation_single`: A "mixture" of a single Gaussian cannot be constructed: the number of Gaussians minus one is a divisor.
* `C143_negation_single`: The gradient of a single episode is always zero, whatever the rewards: nothing can be learned episode by episode.
* `C143_negation_optimal`: The baselines are not weighted by the squared log likelihood derivatives, as the code intends: the weights cancel in each episode. With the baselines of smallest variance the estimate can even have the other sign.
* `C143_negation_nan`: As soon as the derivatives of the log likelihood up to some time step of some episode sum to zero, all components of the gradient are nan.
* `C145_negation_single`: With batches of one there is nothing to compare with, but the number of evaluations grows by the factor in every call after the first, even if the function has no noise.
* `C145_negation_increase`: The first increase with the default factor has no effect: the number of evaluations, 1 times 1.5, is cut off to 1 again.
* `C146_negation_shape`: A matrix without columns loses its shape: the result has one dimension.
* `C146_negation_expected`: The documented expected number of columns, here that for one customer, `alpha`, is not reached, whatever the number of sticks: if the stick proportions are independent with the mean `a / (a + 1)` of `beta(a, 1)`, `a = alpha / reducedprop`, the expected number of columns, the sum of the expected probabilities, is smaller.
* `C147_negation_rosenbrock`: The base function of `bbob_f8` and `bbob_f9` (and of noisy ones) has its optimum at the point of ones, so that the reported `xopt` is not optimal: there the value is the dimension minus one. Without rotation the value zero is found at `xopt + 1`.
* `C147_negation_sign`: The oscillation loses the sign, in both versions: it is positive for all coordinates, even where the coordinate is negative.
* `C147_negation_one`: In one dimension conditioning fails with a division by zero, and with asymmetry all values are nan.
* `C147_negation_penalized`: A base function that contains a penalization is penalized once more: the attribute of the wrong object is tested.
* `C148_negation_step`: The steps are not symmetric: coordinates above 1/2 are rounded to integers, but coordinates below -1/2 still to tenths.
* `C148_negation_sector`: The `xopt` it reports, a random point, is not the optimum of the attractive sector function.
* `C148_negation_gallagher`: The `xopt` they report is the origin, where the value is positive unless the first peak happens to be there.
* `C148_negation_lunacek`: The `xopt` it reports is the origin, where the value is positive.
* `C148_negation_schwefel`: Schwefel's function of the BBOB collection has values below -400, in every dimension and for all random signs: zero is not its minimum.
* `C149_negation_reading`: Reading the sensors is not free of effects: every reading after an action applies the action once more.
* `C149_negation_lost`: Actions that are not followed by a reading are lost.
* `C149_negation_noise`: With noise the draws are appended to the observation, which is twice as long then, and never influence the state.
* `C149_negation_total`: The total reward, which is the fitness of a policy, is not the sum of the rewards: each reward is added with the action of the step before, in the first step the last action of the previous episode. Two evaluations of the same policy differ.
* `C149_negation_finished`: Asking whether the episode is over counts as a step: asking twice in each step makes episodes of half the length.
* `C150_negation_first`: **C150 violated: "each episode is considered n times for learning until discarded".** Episode number `j < n` of the first ones is considered only `j + 1` times, then it is discarded: the first one only once.
* `C150_negation_last`: **C150 violated: the last episode** (number `n + c - 1`) is run after the last learning step and never considered.
* `C151_negation_gap`: **C151 violated: gaps in the complexities.** If there are no programs of complexity `k`, and those of smaller complexity terminate without solving the problem, the search fails with a KeyError, whatever the more complex programs are. With `k = 0`: enumerations in which programs have complexity 1 or more; and every finite enumeration without a solution.
* `C151_negation_time`: **C151 violated: the time limit.** Programs are executed without one: if the first program does not terminate, neither does the search, whatever the others are.
* `C152_negation_mirror`: **C152, violated.** Without symmetric dimensions (the default of the class is symmetric), mirror images are not treated alike although the directions are symmetric: on a board of size 2, with all inputs the same, the outputs differ between two units that are mirror images of each other.
* `C152_negation_transpose`: **C152, violated.** With three dimensions of the same size the dimensions are not treated alike although they are symmetric: the weights of the borders depend on the order of the remaining coordinates. In a network of size 3, with all inputs the same, the outputs differ between two units that differ in the order of the first two coordinates.
* `C152_negation_directions`: **C152, violated.** "BorderSwipingNetworks are currently limited to direction-symmetric weights", and a NotImplementedError says so. But it is raised only for subclasses that change the attribute: an argument `symmetricdirections = False` is not noticed, a network is built, and it has different weights for the two directions. On a board of size 2 with equal inputs the outputs at two opposite corners differ.
* `C152_negation_options`: **C152, violated.** Two of the documented options of CaptureGameNetwork cannot be used: `directlink = True` ends with a TypeError and `combinputs > 0` with an AttributeError, for all sizes.
* `C153_negation_best`: **C153 violated: the search for the best parameters.** GridSearch does not return the parameters with the best accuracy. Whatever the accuracies are, it takes a pair with the largest exponent of C, uses its exponent of gamma for C, and the accuracy there (a number from 0 to 1) as exponent of gamma.
* `C153_negation_reuse`: **C153 violated: reuse.** "The last 5 points do not need to be calculated when refining the grid", so a level costs 8 evaluations: not if the best point lies on the side of the window. Then one of these 5 is new as well, and two levels take 22 evaluations instead of 21.
* `C154_negation_first`: **C154 violated: the first learning cycle.** "Learning is done after a certain amount of" episodes: not the first time. With a cycle of two, learning happens after the first episode, from one episode.
* `C154_negation_empty`: **C154 violated: an empty episode.** The learner never sees the episodes alone: there is always a further, empty one at the end of the history, so that averages over the sequences are over one too many.
* `C154_negation_prefix`: **C154 violated: names with dashes.** If an agent's name continues another one's with a dash, files of the one are taken for files of the other: after testing the agent "a-b", the agent "a" is not tested at all, in spite of being listed, for any number of loops.
* `C155_negation_waypoint`: **C155 violated: passing a waypoint.** In every state the environment can be in, an answer with a new current waypoint raises "Unexpected episode change", also when it is the waypoint announced as the next one (which is never stored), unless its first coordinate is zero.
* `C155_negation_scores`: **C155 violated: scores.** As long as no waypoint has first coordinate zero, no history ever gives a car a score, so the fitness of every controller is zero.
* `C156_negation_extension`: **C156 violated: no extension.** With the empty extension, no file is found, whatever the directory contains.
* `C156_negation_some`: **C156 violated: at least one.** "Those that have at least one of the required substrings": by default a string needs all of them.
* `C156_negation_crash`: **C156 violated: crashes.** If a call is killed while it writes, all data that had been stored, for all keys, are gone: the next call finds an empty dictionary and stores its own data only. (Pickles end with a stop code, so proper prefixes are not pickles.)
* `C156_negation_text`: **C156 violated: Python 3.** Where files opened with mode 'w' do not take bytes, every call of addToDictFile, and of pickleDumpDict, empties the file: nothing is stored, and earlier data are lost.
* `C156_negation_race`: **C156 violated: concurrent processes.** If a process reads the file between reading and writing of another one, the data of the other one are lost, whatever they are: the file is as if only the last process had run.
* `C157_negation_named`: **C157 violated: nodes without a name.** If a child with the right tag has no name, finding any child behind it by name raises KeyError.
* `C157_negation_list`: **C157 violated: lists of numbers.** A list of two or more numbers that was written cannot be read back: the commas between the numbers raise ValueError, however numbers are printed.
* `C157_negation_single`: **C157 violated: single numbers.** Of a single number the first character is lost, so 12 is read as 2, and a number of one digit as nothing.
* `C158_negation_parameters`: **C158 violated: more time dimensions.** For two or more time dimensions (what the layer is for), the first parameter of the output connection is at the same time the first parameter of the second predecessor, and the last parameter of the layer belongs to none of the connections.
* `C159_negation_main`: **C159 violated: main individuals.** The genome of a main individual is a copy, although the interface asks for a reference: a mutation or randomization applied to a population of main individuals succeeds and changes no genome at all.
* `C160_negation_arrays`: **C160 violated: arrays.** Although the server is documented to send lists of arrays too, a list that contains an array anywhere is never received, whatever the sizes: the client's module does not know the name `array` that the text uses.
* `C160_negation_long`: **C160 violated: long data.** Data whose text is longer than the buffer is not received, since the end of the text is cut off, with its closing bracket (a proper beginning of the text of an expression with brackets is not an expression).
* `C160_negation_quit`: **C160 violated: clients that quit.** A server that listens once per round, while two or more clients report to it, serves clients that have quit for any number of rounds: their old datagrams still wait at the socket, so the timeout does not occur.
* `C161_negation_stale`: **C161 violated: the perturbation of another episode.** The changes are to be kept for one episode. If an episode begins with learning switched off, the explorer is not told; when learning is switched on, it acts by the perturbed copy that was made for an earlier episode, from a module that the learner has changed since, while the module chooses another action.
* `C162_negation_average`: **C162, failure: averaging without elitism.** Without elitism the proportion of the parents has no effect at all on the players that are produced: any two proportions below one give the same new population.
* `C162_negation_elitism`: **C162, failure: averaging with elitism.** With elitism and averaging, a selected player that has a parent does not survive: every member of the new population with a parent is a new object, moved towards its parent again.
* `C162_negation_empty`: **C162, failure: no generation.** When the budget does not suffice for one generation, `learn` raises an IndexError instead of returning a player.
* `C162_negation_single`: **C162, failure: a single player.** A population of one player (without hall of fame) never plays a game, so that a limit on the evaluations that allows the first generation never ends the search.
* `C163_negation_sampling`: **C163, failure: the sample ignores the results.** `Coevolution` samples relative to the population that is about to be evaluated. Its members are new (without elitism) and have not met, so that nobody beats anybody: any list of distinct candidates of the requested size is then as good a sample as any other.
* `C163_negation_too_few`: **C163, failure: too few candidates.** Asking for more players than there are raises an IndexError.
* `C163_negation_draws`: **C163, failure: draws do not count.** Parasites with which a host has drawn are treated as not played: adding them changes nothing, so that a host that beats one of a hundred parasites and draws with the others is as fit as one that only had to play that one.
* `C163_negation_global`: **C163, failure: the global score is not an average.** A player that has met an opponent in two rounds is credited with these games twice over: with four games (two of them as second player) won against one and two games lost against another opponent the average score is 2/6, but the global score is 6/10.01.
* `C164_negation_name`: **C164 (an attribute can change the name), false.** An attribute called `myName` is not kept as an attribute; it replaces the name of the tag.
* `C164_negation_bare`: **C164 (writing), false for tags with neither attributes nor subtags.** They are written as `<name>` and never closed: every structure that contains one is written as pieces that no reader accepts.
* `C164_negation_escape`: **C164 (special characters), false.** Values are not escaped: a value with a quotation mark is written in the same way as two attributes.
* `C164_negation_find`: **C164 (finding tags), false.** Looking for a tag by its name raises an `AttributeError` whenever there are subtags to look at; moving down to a tag and scaling always do.
* `C165_negation_axis`: **C165 (well-formed files), false with the default axis.** A slider or hinge without an axis makes the file unreadable.
* `C165_negation_merge`: **C165 (merging), false.** Merging two files always raises an `AttributeError`.
* `C165_negation_write`: **C165 (writing the file), false.** `writeXODE` opens the file for bytes and writes text: it raises a `TypeError` for every structure and leaves an empty file.
* `C165_negation_cylinder`: **C165 (mass of cylinders), false.** The factor of the volume of a cylinder is four times too large: the density that is computed for a given mass gives the body about a quarter of it.
* `C166_negation_reset`: **C166 (a reset state is a new one), false.** The constructor lets the cube fall for one step after its reset: the upper points of a new environment are lower than after a reset. A reset does not compute the centre of gravity anew: it is the one of the last state.
* `C167_negation_dimension`: **C167 (tasks tell the size of their observations), false.** `inDim` is computed before the task sets the sensors of the environment: in a new environment it is 12 for all tasks, not 24, 35 or 32.
* `C167_negation_unusable`: **C167 (all tasks can be used), false.** The tasks with a target cannot be constructed, since the environment has no `hasRenderInterface`; the others fail in the first step if they are not reset before, since `action` is missing.
* `C167_negation_delay`: **C167 (actions are rewarded by their effect), false.** The reward of a step is computed from the observation before it: two actions in the same state get the same reward, and what the last action of an episode does is not rewarded at all.
* `C168_negation_kept`: **C168 (one estimate per sample of gradients), false.** The gradients are never deleted: after the first estimate every further call with regular gradients makes another one, with all the gradients of the earlier ones in it.
* `C168_negation_single`: **C168 (any number of parameters), false.** With one parameter no call ever returns an estimate: as soon as there are enough gradients, every call raises.
* `C168_negation_irprop`: **C168 (IRpropPlus follows gradients), false.** Its constructor does not store the bound: every call raises an AttributeError.
* `C169_negation_initial`: **C169, negation: a distance of zero.** A sensor of the distance to a point reports the distance 0 after it has been added, whatever the state of the world.
* `C169_negation_stale`: **C169, negation: stale distances.** After a reset the sensors of distances still report the distances in the state before the reset, not those in the state that the file describes.
* `C169_negation_unknown`: **C169, negation: unknown bodies.** If no object has the given name, the documented behaviour is a warning and the distance 0. Instead every step fails with a TypeError; the world has then moved on but the step is not counted, and sensors that were added later still report the former state.
* `C169_negation_failed`: **C169, negation: failed additions.** A sensor of joints by name fails with a TypeError if a name does not exist (the documented behaviour is a warning and the end of the program). The sensor is then in the list of the environment all the same.
* `C169_negation_python3`: **C169, negation: Python 3.** In Python 3 no file can be loaded.
* `C170_negation_partial`: **C170, negation: actions are applied in part.** When an action is refused because it is too short for the second actuator, the torques for the first one have been added; they take effect in the next step.
* `C170_negation_steps`: **C170, negation: torques last for one step.** With several steps for each action, the torques do not act in all steps: the outcome differs from the one of steps with torques.
* `C170_negation_sliders`: **C170, negation: files with sliders.** With a slider there are more joint angles than actions; the tasks for Johnnie and CCRL subtract the two.
* `C170_negation_load`: **C170, negation: loading another file.** After another file has been loaded, the actuators still move the joints of the former file: the torque of the action goes to a joint that does not exist in the new file.
* `C171_negation_sensors`: **C171, negation: sensors without sensor elements.** Without sensor elements the commands for the sensors are written without their tag: the environment reads back no sensors, and takes the commands for values of the section before, in the example for names of joints to affix.
* `C171_negation_indent`: **C171, negation: indented tags.** A tag with a space before it is not recognised but counts as a value.
* `C171_negation_parts`: **C171, negation: parts of names.** Objects pass each other although their names are not in the tuple: it suffices that a member of the tuple is a part of their names.
* `C172_negation_broken`: **C172, negation**: resetting a task does not start its count again. If an episode is broken off after `k` actions and the task is reset, the next episode has only `epiLen + 1 - k` actions.
* `C172_negation_rob`: **C172, negation**: with the division of Python 3 the perturbations of `RobStandingTask` do not last at most 50 steps. In every episode before the 2000th whose number is not a multiple of 50, the step at which gravity would be set back is not integral: gravity stays tilted from step 1000 to step 2000, and from step 3000 to the end.
* `C172_negation_robust`: **C172, negation**: the same for `RobustStandingTask` in every episode before the 10000th whose number is not a multiple of 200.
* `C172_negation_limit`: **C172, negation**: the limit of the reward for standing does not prevent jumping. The height is divided by the length of the episode before it is compared with the height 4 of an upright head, so with the 1000 steps of the task jumping higher than that gives more reward, up to a height of 4000.
* `C172_negation_jumping`: **C172, negation**: the jumping task cannot be used. Its sensors get generated names, the reward asks for a sensor with another name, and every action fails with an `IndexError`.
* `C172_negation_standing_up`: **C172, negation**: the task of standing up gives no reward for standing up. In the first 800 steps the reward is 0, afterwards it asks for a sensor that does not exist and every action fails.
* `C173_negation_places`: **C173, negation**: the location that the task chooses for a part is not the one of that part. It is chosen after the environment has been reset and only has an effect at the next reset: with different locations the object never stands, in any part of any episode but the first, at the location chosen for that part; in part `k ≥ 1` of the first episode neither.
* `C173_negation_first`: **C173, negation**: in the first part of the first episode the object stands where the file puts it (or where an earlier reset has put it), at none of the locations of the task: its fifth location is not used in the first episode.
* `C173_negation_flag`: **C173, negation**: the punishment for touching the table in the glass task does not end when the table is no longer touched. The flag stays set until the end of the episode, because the branch that should clear it sets a variable of its own: after the steps `ts` it is set exactly if the table has been touched in any of them, and it enters the reward of each later step.
* `C173_negation_grip`: **C173, negation**: the learner does not control the grip. What it puts into the sixteenth component of its action has no effect on what is done, on the old action that it observes, nor on the array that it keeps itself.
* `C175_negation_text`: **C175 fails in Python 3**: the file of labels is opened as text, so that for every file `labels()` yields nothing and raises, and `makeMnistDataSets()` raises whenever the file of the test images holds a single image.
* `C175_negation_magic`: **C175 fails for files given in place of each other**: the magic number of either kind of file is accepted for both kinds. A file of images read as a file of labels yields the bytes of its header and first pixels as labels.
* `C175_negation_surplus`: **C175 fails for files of different lengths**: surplus images, or labels, are dropped without an exception.
* `C176_negation_sampling`: **C176, failure: shared sampling.** Opponents are sampled among the parasites by whom they beat. Without elitism all parasites are new: they have played no game at all, beat nobody, and any selection of the right size is as good as any other.
* `C176_negation_absolute`: **C176, failure: absolute evaluation.** An absolute evaluator, which the base class mixes into the fitness, has no effect at all when there are two populations.
* `C177_negation_budget`: **C177, failure: the budget.** With k ≥ 3 populations and tournaments no larger than half a population, a generation plays k - 1 times as many games as announced. A learner that has been allowed exactly the announced number of games makes a generation and overruns its budget (k - 1)-fold.
* `C177_negation_best`: **C177, failure: the best part.** The part of each other population that is played against is meant to be the best of it. Without elitism a population consists of new objects after its turn, none of which has ever played: its first half is no better than its second.
* `C177_negation_seeds`: **C177, failure: the caller's seeds.** With fewer seeds than populations the constructor appends the missing ones to the list that the caller passed.
* `C178_negation_unlimited`: **C178 negated: unlimited evaluations.** An optimizer without a limit on evaluations (`maxEvaluations = None`, which every other optimizer accepts) raises TypeError.
* `C178_negation_steps`: **C178 negated: steps.** `learn(k)` never makes more than one learning step, whatever number of steps is asked for.
* `C178_negation_single`: **C178 negated: a single evaluation.** With `maxEvaluations = 1` and a `fmin` that keeps to its bound nothing is evaluated, and the reported value is None.
* `C178_negation_goal`: **C178 negated: reaching the goal.** The desired value does not stop the search before `fmin` reports: here the first of the three points of the simplex is good enough.
* `C179_negation_zero`: **C179 negated: doing nothing.** The action 0 pushes the cart to the right: with upright poles at rest the cart gets into motion.
* `C179_negation_discount`: **C179 negated: discount.** A discount factor has no effect on the total reward, since the task does not count its samples.
* `C179_negation_singleton`: **C179 negated: several tasks.** The class means to allow one instance only, but a second one can be made; it takes over the simulation of the first one, which then shows observations of the second one's kind.
* `C179_negation_poles`: **C179 negated: three poles.** Tasks with three or more poles can be made; all their observations are zero.
* `C179_negation_coordinates`: **C179 negated: Cartesian coordinates.** The additional observations are meant to be the coordinates of the tip of the pole. They do not depend on the position of the cart, and instead of the angle they use the angle divided by twelve degrees.
* `C179_negation_overwritten`: **C179 negated: additional random observations.** With one additional random observation and the coordinates, the place of the cart's velocity is overwritten by a coordinate.
* `C180_negation_adaptive`: **C180 violated: adaptive shaping** does not adapt. Whatever the densities of the samples and their fitnesses are, the smallest fraction is chosen, with which only the best sample of the window has a utility.
* `C180_negation_shared`: **C180 violated: optimizers are independent.** The parameter of the ranking function is shared by all optimizers: a step of one with adaptive shaping changes what another one does, which has no options at all. The second best sample of a window, which without that step moves the center, has no effect after it.
* `C180_negation_oneFifth`: **C180 violated: the one-fifth rule.** If nothing improves, for all fitnesses are the same, the distribution is widened.
* `C181_negation_vanillaScale`: **C181 violated: vanilla scaling** makes only the change of the deviations follow the scale of the search space. If all coordinates are multiplied with `k`, the deviations change by `k` times as much, as they should, but the center, which should do so too, moves by a `k`-th.
* `C181_negation_online_first`: **C181 violated: online learning, the first update** compares the new sample with one other only: the baseline is the utility of the second oldest of the last samples, whatever the other utilities are.
* `C181_negation_online_store`: **C181 violated: online learning with all distributions stored** fails at the first update, whatever the state is.
* `C181_negation_online_elitism`: **C181 violated: online learning ignores elitism.**
* `C182_negation_order`: C182 fails for other orders: whenever the last input is smaller than the first one the option has no effect at all, whatever the samples are, because the inputs are not sorted and the average distance becomes negative.
* `C182_negation_single`: C182 fails for a single sample: ZeroDivisionError is raised, while without the option a prediction is made.
* `C182_negation_dimension`: C182 fails for inputs with several components: with at least two samples ValueError is raised.
* `C183_negation_order`: **C183 fails for the order of the parameters**: the network is sorted in the order in which connections were added, the converted network in the order of their names, and "FullConnection-10" comes before "FullConnection-9". The same values are then found at other places of the parameter vector.
* `C183_negation_values`: **C183 fails for the original network**, in its values: after the conversion the components see a new array. Writing into the parameter vector of the original network is without effect on any component and on the new network, and what is written into the new network is not seen in the vector of the original one. (The components of the new network may come in any order.)
* `C183_negation_owner`: **C183 fails for the original network**, in its interface: all components with parameters belong to the new network, so that setting the parameters of the original network raises an exception, if it has any.
* `C184_negation_grown`: **C184 fails for searches after the data set has grown**: the targets are taken when the trainer is constructed. If the data set has changed its size since (and neither size is 1) every candidate has score 0, even one that is right about every sample. (In versions of numpy since 1.25 the comparison raises ValueError instead.)
* `C184_negation_relabelled`: **C184 fails for searches after labels have changed**: as many samples, but other labels: a candidate that is right about all samples can have score 0, and one that is wrong about all of them score 1.
* `C184_negation_option`: **C184 fails for other options**: every other value (`None`, 'classes', 2) is accepted without an exception and gives probabilities.
* `C185_negation_shared`: **C185 fails for a second object**: its figure contains the runs of the first one, and the first run of the first object has been prolonged by the results of the second object's first run, because the lists belong to the class. For runs of equal lengths this raises an exception, as soon as a run of the first object is followed by one with results of the second.
* `C185_negation_merged`: **C185 fails for an object that shares a single run**: after one run with each of two objects, of any results, the figure of the second shows two runs, both equal to the results of the first object followed by those of the second.
* `C185_negation_shown`: **C185 fails after the figure was shown**: further runs cannot be added, AttributeError is raised.
* `C186_negation_none`: **C186 fails for taking an explorer away**: learners may be without explorer, but assigning `None` to one with a module raises AttributeError; nevertheless the explorer is gone.
* `C186_negation_empty`: **C186 fails for modules without parameters**: an explorer assigned after such a module is not told about it.
* `C186_negation_before`: **C186 fails for explorers assigned before the agent is made**, which is what the documentation asks for: without a module the assignment raises an AssertionError, and with one the explorer is replaced by a default one as soon as the learner is given to an agent, even with the same module.
* `C186_negation_paramless`: **C186 fails for modules without parameters**: no explorer can be assigned (AssertionError), although the explorer has parameters that could be learned.
* `C186_negation_sync`: **C186 fails for changes during learning**: if an explorer or a module is assigned, the log-likelihoods of all samples are forgotten, and the samples are not; samples logged while learning is off have no log-likelihoods at all.
* `C186_negation_dataset`: **C186 fails after learning from another data set**: whatever the agent experiences after `learnOnDataset(ds)`, its learner keeps learning from `ds`, also after resets, until another agent is made with it.
* `C187_negation_add`: **C187 fails for samples added after the conversion**: the class of the last sequence cannot be read, nor can sequences be removed or classes be assigned: IndexError, for every history, sample and row.
* `C187_negation_split`: **C187 fails for stratified splits**: as soon as there is a closed sequence of one of the classes, splitting a dataset in 1-of-k representation raises an IndexError, for every history and permutation and all fractions.
* `C189_negation_constructor`: **C189, negation (classes with constructors of their own).** LoglhDataSet, SVMData and the data sets of the examples (XORDataSet, ParityDataSet) can be neither copied nor saved: the constructor is called with the wrong number of arguments.
* `C189_negation_plain`: **C189, negation (files of plain data sets).** A DataSet (or BenchmarkDataSet) can be copied, but not saved: it names a local function as its constructor, which cannot be pickled.
* `C189_negation_compact`: **C189, negation (compact files).** In the format 'list' no data set with fields can be saved in compact form.
* `C189_negation_state`: **C189, negation (format and position).** The copy of a data set of any class but DataSet and BenchmarkDataSet has lost the vector format; every copy starts reading at the first sample, in the first sequence, and has no class statistics.
* `C189_negation_shared`: **C189, negation (shared fields).** A ClassificationDataSet made of arrays and its copy behave differently: the original's fields `target` and `class` are the same memory, so that an assignment to a target also changes the class, but not in the copy.
* `C190_negation_unsorted`: **C190 fails for points that are not given from left to right:** only the first and the last point are looked at, the others may be outside of the figure.
* `C190_negation_empty`: **C190 fails for empty lines:** with automatic scaling no update succeeds as long as one of the lines made in advance has no points.
* `C190_negation_backwards`: **C190 fails for axes that run backwards:** if the right end of the axis is not larger than the left end and the first point, and the last point is larger, the update never ends.
* `C190_negation_shared`: **C190 fails for shared lists:** a list given to two lines is the same for both, and a point added to one of them gives the other one a horizontal coordinate without a vertical one; saving fails then.
* `C190_negation_color`: **C190 fails for colours:** no call that sets a colour succeeds (the line may have got the colour nevertheless, but the style for new lines is not changed).
* `C190_negation_last`: **C190 fails for the line used last:** a style without a number is for the line added to last, but the offset is added to its number twice; and before points were added the call fails.
* `C190_negation_file`: **C190 fails for reading files:** they do not tell where a line of the plot ends, so that different plots have the same file.
* `C191_negation_padding`: **C191 fails for runs of different lengths:** a run that has reached the target counts with the fitness 0 afterwards, and not with the target. Of two runs one reaches the target 1 at once and the other one stays at 5; the average is 3 all the time, but the curve falls to 5/2. When maximising, the curve falls although no run has got worse.
* `C191_negation_maximize`: **C191 fails for maximisation:** averaged over evaluations (the default) the curve tells when the runs were *below* a fitness. A run that reaches 10 after two evaluations is shown to have it from the beginning.
* `C191_negation_target`: **C191 fails without a target:** averaging over evaluations (the default) raises a TypeError for all runs.
* `C191_negation_batch`: **C191 fails for numbers of evaluations given with some of the items only:** they are used for all following names, too. The runs "b" have one evaluation between two fitnesses, but are drawn with ten.
* `C192_negation_ciao`: **C192 fails for coevolution in general:** individuals of the first population are never evaluated against *later* ones of the second. The plots, symmetric or not, are the same for all evaluators that agree on the other pairs.
* `C192_negation_colors`: **C192 fails for equal evaluations:** if all are the same, for instance with a single generation, no numbers are drawn (division by zero).
* `C192_negation_ellipse`: **C192 fails for ellipses in general:** if `u` is a rotation, the points are on the *mirrored* ellipse, with the opposite correlation. For the covariance matrix with the entries 52/25, 36/25, 36/25, 73/25, the first point drawn is not on its ellipse.
* `C192_negation_samples`: **C192 fails for samples in general:** the smallest x is multiplied by 1.1, which moves it *inwards* if it is positive. In a plot of the range from 10 to 20, a sample at 5 extends the grid to 11/2 only, and is outside.
* `C192_negation_card`: **C192 fails for punch cards of class numbers:** with targets that are the numbers of classes, as `ClassificationDataSet` has them at first, the expected class is 0 for all sequences of a constant class.
* `C192_negation_empty`: **C192 fails for punch cards of empty data sets:** they raise a ZeroDivisionError.
* `C193_negation_pieces`: **C193 fails for answers that arrive in pieces:** only one piece is evaluated. If an answer is cut after the first byte, the first byte is dropped; if it is cut later, everything after the cut is left in the socket, and is taken for the answer to the next question.
* `C193_negation_bytes`: **C193 fails for single bytes:** if `OK` arrives in two pieces, it is not recognised, and the player waits for more.
* `C193_negation_closed`: **C193 fails for a closed connection:** the player waits for ever.
* `C194_negation_zero`: The note that the optimal value is zero for all is wrong for the functions with oscillation and for the attractive sector: they are never zero.
* `C194_negation_opt`: The reported optimum is wrong for the linear function (5), Rosenbrock's functions (8, 9, 104 to 106, 110 to 112), their composition with Griewank's (19, 125 to 127) and Lunacek's function (24): there the value is positive, although zero is attained by the base function.
* `C194_negation_peaks`: Gallagher's functions (21, 22, 128 to 130) are nowhere negative and zero exactly at the first peak, but they report the origin.
* `C194_negation_schwefel`: Schwefel's function (20) has values below -400.
* `C194_negation_bounds`: The noisy versions of Rosenbrock's function (104 to 106, 110 to 112) are penalized outside of the bounds, and their zero, `xopt + 1`, may be there: then they are never zero.
* `C195_negation_nested`: A mass element that contains only nested masses is heavier than they are together, by the mass of a sphere of radius and density one.
* `C195_negation_order`: A shape after nested masses discards them.
* `C195_negation_density`: A shape without density is ignored: the mass is that of the sphere, for all shapes and sizes.
* `C195_negation_masses`: Of two mass elements of a body only the second counts.
* `C195_negation_late`: A transformation that comes after the first other child of a body, or after the shape of a geom, is without effect on it.
* `C195_negation_lost`: Within a body the transformation of a geom around a geom without one of its own is without effect on the inner one: its shape is put at the place of the body.
* `C196_negation_sorted`: **C196 fails in Python 3**: dictionaries cannot be sorted, so that every call with two or more different combinations raises a TypeError.
* `C196_negation_default`: **C196 fails for the default of `varyperplot`**: with any options, TypeError.
* `C196_negation_two`: **C196 fails for curves with two points**, which are drawn as a single point, the first value being taken for its abscissa; and coordinates cannot be told apart by the differentiator (TypeError).
* `C196_negation_labels`: **C196 fails for labels**: values with the same first five characters (such as 0.0001 and 0.00015) have the same label, though they are different curves of one figure.
* `C197_negation_start`: **C197 fails before the mouse is used**: the eye is one and a half times the view distance away.
* `C197_negation_follow`: **C197 fails for objects that are followed**: the camera follows their height only. For every view and every distance there is an object that is further away from the eye than this.
* `C197_negation_zoom`: **C197 fails for the mouse dragged out of the window**: 55 pixels above it the view distance is less than 0.0001 instead of the smallest distance 0.1875.
* `C197_negation_normal`: **C197 fails for other normal vectors**: the disk of a plane with normal `(0, 0, 2)` at distance one is drawn through the point `(0, 0, 2)`, which is not in the plane.
* `C197_negation_screenshots`: **C197 fails for the first frame**, which is not saved (also if every frame is to be saved), and after files were removed: then a screenshot replaces another one.
* `C198_negation_mirror`: **C198 fails for the normal vectors of the mirror image**: they are those of the original, not mirrored, so that wherever a normal vector of the original is not parallel to the mirror, the mirror image has another one than its mirror image.
* `C198_negation_shadow`: **C198 fails for the shadow**: with the center of gravity above the floor, the normal vectors of all faces of the shadow but the first one point down, and the first one lies below the floor.
* `C199_negation_columns`: C199 (violation). With more than one column of targets the hit rate of a module on a data set with samples cannot be calculated: for every module and data set a TypeError is raised, unless the numbers of outputs and samples differ.
* `C199_negation_importance`: C199 (violation). For a data set with importances the hit rate of a module is never calculated: a TypeError is raised.
* `C200_negation_scale`: C200 (violation). The scale depends on the way of sampling: for the matrix with the single entry 4 the samples do not have the same distribution with the full matrix, for every singular value decomposition, as with its diagonal only (the scales are 2 and 4).
* `C200_negation_direction`: C200 (violation). With the full matrix samples lie in a wrong direction: for the matrix of ones in two dimensions the distribution lies on the diagonal through the mean, but whatever singular value decomposition is used, no sample is on it, if only the first random number is not 1/2.
* `C201_negation_torn`: **C201 fails for `CartPoleRenderer` if `updateData` is called during a frame**, because `_render` does not use the lock: whenever the cart moves, it may be drawn without the pole standing on it, and there are frames where the pole is longer than it is.
* `C201_negation_colour`: **C201 fails for the colour of the cart**: it is green for every angle to the left, even with the pole hanging down.
* `C201_negation_first`: **C201 fails for the first picture**, in which the pole is twice as long as in all others.
* `C202_negation_exception`: **C202 fails after an exception** in `listen` or `send`: the lock is never released, and no state is sent any more, whatever is done.
* `C202_negation_stale`: **C202 fails for `reset`**, which sends its signal without the lock: the state before the reset may be sent after the signal.
* `C203_negation_finished`: **C203 fails for a renderer that has finished**: whoever calls `start` then gets an exception, although `start` asks whether the thread runs; the renderer does not run again.
* `C203_negation_race`: **C203 fails for two threads** that call `start` at the same time: both find that the renderer does not run, and the second one gets an exception.
* `C204_negation_torn`: **C204 fails if the world makes a step while a message is built**, for any number of values from two on: the message then shows a state the world has never had, here the first `r` values before and the others after the step.
* `C204_negation_exception`: **C204 fails after an exception** in `listen` or `send`: the lock stays locked, and whatever happens, no message is sent any more.
* `C205_negation_drop`: **C205 fails when the clients are dropped while `send` runs**, for any clients and after any number of packets but the last: `send` finds no address and raises an exception, in the environment's `reset`.
* `C206_negation_reset`: **C206 fails for resets of the cube**: after any messages, the signal of a reset changes nothing, because the viewer evaluates it twice; so the old points are shown, whatever they are.
* `C206_negation_lost`: **C206 fails for the ship when a message is lost**: the viewer then raises an exception, after any messages and whatever follows.
* `C206_negation_heading`: **C206 fails for the directions of the ship**: the viewer takes half of the angle. A ship that goes south (heading 180 degrees) with any speed forward should move back by a fiftieth of its speed; it is drawn less than a quarter of that.

## 5. What is modelled

* `Model/Agent.lean`: Model of pybrain/rl/agents/logging.py, learning.py, pybrain/rl/experiments/experiment.py and episodic.py.
* `Model/Assembly.lean`: Model of how agents, learners, modules and explorers are put together: pybrain/rl/learners/valuebased/valuebased.py (ValueBasedLearner), pybrain/rl/learners/directsearch/policygradient.py (PolicyGradientLearner, the part that ties module and explorer together), pybrain/rl/learners/learner.py (learnOnDataset), pybrain/rl/explorers/discrete/discrete.py (module) and pybrain/rl/agents/learning.py (LearningAgent).
* `Model/AutoNoise.lean`: Model of the option `autonoise` of pybrain/auxiliary/gaussprocess.py (lines 124-142), which Verif.Model.GaussProcess leaves out. As there, reals stand for floats, `solve` and `inv` are the exact solution and inverse. Inputs have at least one component.
* `Model/Bbob.lean`: Model of `BBOBTransformationFunction` (`pybrain/rl/environments/functions/transformations.py`).
* `Model/BbobBase.lean`: Model of the benchmark functions with random parameters: `StepElliFunction` and `AttractiveSectorFunction` (`pybrain/rl/environments/functions/unimodal.py`) and `Schwefel20Function`, `GallagherGauss101MeFunction` and `LunacekBiRastriginFunction` (`pybrain/rl/environments/functions/multimodal.py`).
* `Model/BbobCollection.lean`: Model of the BBOB collection (`pybrain/rl/environments/functions/bbob2010.py`): `bbob_f1` to `bbob_f24` and the noisy `bbob_f101` to `bbob_f130`.
* `Model/Benchmark.lean`: Model of the benchmark functions of `pybrain/rl/environments/functions/unimodal.py` and `multimodal.py`.
* `Model/Bidirectional.lean`: Model of pybrain/structure/networks/bidirectional.py (BidirectionalNetwork), without predefined connections (the argument is stored and not used).
* `Model/Blocks.lean`: Model of the matrix packing helpers of pybrain/utilities.py. A vector is a function on positions, a matrix a function on (row, column); entries outside the array are never looked at. Divisions are integer divisions (the code is written for Python 2; in Python 3 `zeros(dim * (dim + 1) / 2)` and the index `j` of permuteToBlocks2d would be floats).
* `Model/Border.lean`: Model of pybrain/structure/networks/borderswiping.py (BorderSwipingNetwork) and pybrain/structure/networks/custom/capturegame.py (CaptureGameNetwork): swiping networks with weights for the places where a swipe enters the grid. Hidden layers have no parameters (not MDLSTM), and there are no predefined connections. The weights of borders that `_extrapolateBorderAt` gives to networks made by `resizedTo` are modelled by `extrapolate`.
* `Model/BuildNetwork.lean`: Model of `buildNetwork` (pybrain/tools/shortcuts.py:21-109) on top of the construction interface of networks.
* `Model/Builder.lean`: Model of the construction interface of networks: pybrain/structure/networks/network.py (addModule, addInputModule, addOutputModule, addConnection, __getitem__, sortModules) pybrain/structure/networks/recurrent.py (addRecurrentConnection, sortModules)
* `Model/CMAES.lean`: Model of `CMAES`, optimization/distributionbased/cmaes.py:13-131.
* `Model/CaptureGame.lean`: Model of pybrain/rl/environments/twoplayergames/capturegame.py (CaptureGame).
* `Model/CartPole.lean`: Model of pybrain/rl/environments/cartpole: cartpole.py (CartPoleEnvironment, CartPoleLinEnvironment), doublepole.py, nonmarkovpole.py, nonmarkovdoublepole.py, and the tasks of balancetask.py.
* `Model/Cauchy.lean`: Model of the sampling of Cauchy distributions (`multivariateCauchy` in pybrain/tools/functions.py). The random numbers are an argument, and so is the singular value decomposition. Vectors are functions on `Fin n`; numbers are real.
* `Model/CheapCopy.lean`: Model of pybrain/structure/evolvables/cheaplycopiable.py (CheaplyCopiable).
* `Model/Classic.lean`: Model of pybrain/rl/environments/classic: mountaincar.py and acrobot.py (with its variants); xor.py is in Model/Xor.lean.
* `Model/Classification.lean`: Model of pybrain/datasets/classification.py (class ClassificationDataSet) and of Validator/ClassificationHelper in pybrain/tools/validation.py:90-98.
* `Model/ClientPlayer.lean`: Model of pybrain/rl/environments/twoplayergames/capturegameplayers/clientwrapper.py (ClientCapturePlayer) and captureplayer.py (CapturePlayer), with the strings of Python 2 (in Python 3, `send` takes bytes).
* `Model/Codes.lean`: Model of the integer and binary codes in pybrain/utilities.py. Natural numbers only (the docstrings speak of binary representations; a negative argument of `asBinary` returns `str(i)` and is not modelled).
* `Model/Coevolution.lean`: Model of the co-evolution optimiser (pybrain/optimization/populationbased/coevolution/coevolution.py:11-270) and of the competitive fitness sharing (competitivecoevolution.py:31-64). At this commit the package cannot be imported (`coevolution/__init__.py` imports `competitivecoevolution`, which imports `pybrain.optimization.coevolution.coevolution`, a path that does not exist); the classes are modelled as they are written.
* `Model/CoevolutionPops.lean`: Model of co-evolution with several populations: pybrain/optimization/populationbased/coevolution/competitivecoevolution.py:8-91 and multipopulationcoevolution.py:8-67. Like their base class (see `Verif.Model.Coevolution`) they cannot be imported at this commit and are modelled as they are written.
* `Model/Connections.lean`: Model of the connections in pybrain/structure/connections over the reals. `a..b` is the slice of the source, `c..d` the slice of the target. A SharedFullConnection (shared.py:68-75) is a FullConnection whose container `pc` is its MotherConnection.
* `Model/Continuous.lean`: Model of `ContinuousExperiment` (pybrain/rl/experiments/continuous.py), of `DiscreteStateDependentExplorer` (pybrain/rl/explorers/discrete/discretesde.py) and of the switch `learning` of `LearningAgent` (pybrain/rl/agents/learning.py), on top of the model of experiments, agents and histories (`Verif.Model.Agent`).
* `Model/Converge.lean`: Model of `BackpropTrainer.trainUntilConvergence` (pybrain/supervised/trainers/backprop.py:188-260), with training and data abstract.
* `Model/Convert.lean`: Model of `NeuronDecomposableNetwork.convertNormalNetwork` (pybrain/structure/networks/neurondecomposable.py:89-109), on the network structures of Verif.Model.Builder. The parameter info built by the last `sortModules` is part of Verif.Model.Decomposable; here it is assumed that it can be built.
* `Model/Convolution.lean`: Model of pybrain/structure/networks/convolutional.py (SimpleConvolutionalNetwork) and pybrain/structure/networks/custom/convboard.py (ConvolutionalBoardNetwork).
* `Model/CopySet.lean`: Model of `copy`, `save_pickle` and `__reduce__` of the data sets: pybrain/datasets/{dataset,supervised,unsupervised,sequential,classification,importance, reinforcement}.py, and of the classes derived from them in pybrain/tools/{benchmark,svmdata}.py, pybrain/rl/learners/directsearch/policygradient.py and examples/supervised/backprop/datasets.
* `Model/Crowding.lean`: Model of crowding_distance, pybrain/tools/nondominated.py:8-25, over a linearly ordered field. `big` is the constant 1e100.
* `Model/CubeDrawing.lean`: Model of the drawing of the flexible cube (`pybrain/rl/environments/flexcube/objects3d.py`): `drawCreature`, `drawMirCreat` and `drawShadow`.
* `Model/DataEval.lean`: Model of the evaluation of functions and modules on data sets: pybrain/datasets/supervised.py:69-104, sequential.py:175-189, importance.py:24-50, and of ReinforcementDataSet.getSumOverSequences, reinforcement.py:43-47.
* `Model/DataSet.lean`: Model of pybrain/datasets/dataset.py (class DataSet).
* `Model/Decomposable.lean`: Model of neuron-decomposable networks: `structure/networks/neurondecomposable.py`, with the parts of `connections/full.py`, `connections/connection.py` and `modules/neuronlayer.py` it uses.
* `Model/Draw.lean`: Model of pybrain/utilities.py:35-75 (drawIndex, drawGibbs) and of the explorers of pybrain/rl/explorers (epsilon-greedy, Boltzmann, normal, state-dependent).
* `Model/ES.lean`: Model of pybrain/optimization/populationbased/es.py (ES, evolution strategies).
* `Model/Enumerate.lean`: Model of the enumeration helpers of pybrain/utilities.py. Generators are lists. A dictionary is the list of its items in insertion order, with distinct keys.
* `Model/Evolino.lean`: Model of the populations and the selection operators of Evolino: `pybrain/supervised/evolino/gpopulation.py` (`SimplePopulation`), `pybrain/supervised/evolino/population.py` (`EvolinoPopulation`) and `pybrain/supervised/evolino/filter.py` (`EvolinoEvaluation`, `EvolinoSubSelection`, `EvolinoSubReproduction`, `EvolinoBurstMutation`).
* `Model/EvolinoNet.lean`: Model of pybrain/structure/modules/evolinonetwork.py (EvolinoNetwork), of the evaluation of one network in pybrain/supervised/evolino/filter.py (EvolinoEvaluation._evaluateNet), of the schedule of burst mutations in pybrain/supervised/trainers/evolino.py (EvolinoTrainer.train), and of the genomes of pybrain/supervised/evolino/networkwrapper.py (NetworkWrapper).
* `Model/ExTools.lean`: Model of pybrain/tools/example_tools.py (class ExTools): recording and showing the results of experiments.
* `Model/FEM.lean`: Model of pybrain/optimization/distributionbased/fem.py (Fitness Expectation-Maximization) with its one center (line 55) and the options `diagonalOnly`, `mutative` and `useAnticipatedMeanShift`. `elitism`, `sampleElitism`, `oneFifthRule`, `doMadnessUpdate` and `adaptiveShaping` are left at their default (off); they are in Verif.Model.FEMOptions.
* `Model/FEMOptions.lean`: Model of the options of pybrain/optimization/distributionbased/fem.py that Verif.Model.FEM leaves out: `elitism`, `sampleElitism`, `oneFifthRule`, `doMadnessUpdate` and `adaptiveShaping`, with the full covariance matrix and the default ranking function (pybrain/tools/rankingfunctions.py:120-143).
* `Model/FastCartPole.lean`: Model of pybrain/rl/environments/cartpole/fast_version: cartpole.cpp, cartpolewrap.pyx and cartpoleenv.py (FastCartPoleTask).
* `Model/FileHandling.lean`: Model of pybrain/tools/filehandling.py.
* `Model/FiniteDifference.lean`: Model of pybrain/optimization/finitedifference: fd.py (FiniteDifferences), spsa.py (SimpleSPSA) and pgpe.py (PGPE), on top of the optimizer base class (Model/Optimizer.lean) and GradientDescent (Model/GradientDescent.lean, `rprop` False, the default).
* `Model/FiniteDifferenceRprop.lean`: Model of pybrain/optimization/finitedifference with the attribute `rprop` set: fd.py, spsa.py and pgpe.py with the descenders in rprop mode (fd.py:20, 31; pgpe.py:25-26, 33). Everything else is as in Model/FiniteDifference.lean.
* `Model/FirstMax.lean`: numpy's `argmax` on a list of items with values: the first item whose value is largest. (Not a model of code in /repo.)
* `Model/Fisher.lean`: Model of `pybrain/tools/fisher.py`: the Fisher information matrix of a Gaussian distribution and its inverse, as lists of diagonal blocks.
* `Model/FitPlot.lean`: Model of pybrain/tools/plotting/fitnessprogression.py (plotFitnessProgession): the curves handed to `plot`.
* `Model/FlexCube.lean`: # The flexible cube (`flexcube/environment.py`, `flexcube/sensors.py`, `flexcube/tasks.py`)
* `Model/FunctionTransform.lean`: Model of the function transformations of `pybrain/rl/environments/functions/transformations.py` and of `FunctionEnvironment` (`pybrain/rl/environments/functions/function.py`).
* `Model/GA.lean`: Model of pybrain/optimization/populationbased/ga.py (GA) and evolution.py (Evolution).
* `Model/GameTask.lean`: Model of pybrain/rl/environments/twoplayergames/tasks/capturetask.py (CaptureGameTask), gomokutask.py (GomokuTask) and pentetask.py (PenteTask), with the parts of episodic.py (EpisodicTask), experiments/episodic.py and capturegame.py:254-264 (playToTheEnd) they use.
* `Model/GaussLayers.lean`: Model of pybrain/structure/modules/gaussianlayer.py, statedependentlayer.py, mixturedensity.py, softmax.py (PartialSoftmaxLayer) and of pybrain/supervised/trainers/mixturedensity.py, over the reals. `random.normal(mean, std)` is the mean plus the standard deviation times a standard normal number, which is an argument. The transfer functions are those of Verif/Model/Layers.lean.
* `Model/GaussProcess.lean`: Model of `pybrain/auxiliary/gaussprocess.py`: the class `GaussianProcess` without plotting and without `autonoise` (off by default). Reals stand for floats, `solve` and `inv` are the exact solution and inverse. The grid of test points made by the constructor is an argument. Data sets are given as lists of inputs and scalar targets.
* `Model/Genome.lean`: Model of pybrain/supervised/evolino/gfilter.py, gindividual.py, individual.py and variate.py: nested genomes, the filters that change them in place, the individuals that hold them and the random variates.
* `Model/Gomoku.lean`: Model of pybrain/rl/environments/twoplayergames/gomoku.py (GomokuGame) and pente.py (PenteGame).
* `Model/Gpomdp.lean`: Model of `pybrain/rl/learners/directsearch/gpomdp.py`.
* `Model/GradientDescent.lean`: Model of `GradientDescent` (pybrain/auxiliary/gradientdescent.py:9-94). Numbers are elements of an ordered field (floats idealised), the parameter and gradient arrays are functions on `n` coordinates (a gradient of another length is refused by the assertion in line 57). `NaturalGradient` and `IRpropPlus` are modelled in Model/NaturalGradient.lean.
* `Model/GridSearch.lean`: Model of pybrain/tools/gridsearch.py: GridSearch2D and GridSearchDOE (two parameters). Floating point is idealised by a field `K`; `linspace` is called with a float step count, which current numpy versions reject: modelled as the evident count.
* `Model/Handicap.lean`: Model of pybrain/rl/environments/twoplayergames/tasks/handicaptask.py (HandicapCaptureTask).
* `Model/Ibp.lean`: Model of the Indian Buffet Process helpers (`pybrain/tools/ibp.py`).
* `Model/ImportanceMixing.lean`: Model of pybrain/auxiliary/importancemixing.py:8-34.
* `Model/KMeans.lean`: Model of the seeding in `pybrain/auxiliary/kmeans.py`. Points are vectors of reals (floats are idealised); the data set has at least one point (`random.randint(0)` fails). `kmeanspp` passes the seeds to scipy's `kmeans2`, which is not modelled.
* `Model/KWArgs.lean`: Model of pybrain/tools/kwargsprocessor.py.
* `Model/Kohonen.lean`: Model of pybrain/structure/modules/kohonen.py, over an ordered field. The bounds of the slices `tl` and `br` are numbers with fraction 0; numpy versions that refuse such bounds raise an IndexError or TypeError in every backward pass (the evident semantics is modelled).
* `Model/Landscape.lean`: Model of pybrain/tools/plotting/ciaoplot.py (CiaoPlot), fitnesslandscapes.py (plotCovEllipse, FitnessPlotter) and classification.py (punchcard_module_classification_performance): the numbers handed to the plotting library.
* `Model/Layers.lean`: Model of the layers in pybrain/structure/modules and of the transfer functions in pybrain/tools/functions.py, over the real numbers. A layer is given by what its `_forwardImplementation` leaves in `outbuf` and what its `_backwardImplementation` leaves in `inerr` (`outbuf[:] = ...` ignores the old content, `outbuf += ...` adds to it). Layers without parameters add nothing to `derivs`.
* `Model/LeastSquares.lean`: Model of rl/learners/modelbased/leastsquares.py.
* `Model/Levin.lean`: Model of `LevinSeach` (pybrain/rl/learners/meta/levinsearch.py).
* `Model/LinearFA.lean`: Model of the learners with linear function approximation, rl/learners/valuebased/linearfa.py.
* `Model/LinearFAAgent.lean`: Model of the agent for learners with linear function approximation, rl/agents/linearfa.py, with rl/agents/logging.py.
* `Model/Lstm.lean`: Model of pybrain/structure/modules/lstm.py (LSTMLayer) together with the part of pybrain/structure/networks/recurrent.py:60-71 that moves the time offset of the layers of a recurrent network.
* `Model/LstmNet.lean`: Model of recurrent networks that contain LSTM layers: pybrain/structure/networks/recurrent.py with pybrain/structure/modules/lstm.py (and network.py, module.py).
* `Model/Masked.lean`: Model of pybrain/structure/evolvables/maskedparameters.py (class MaskedParameters).
* `Model/Maze.lean`: Model of pybrain/rl/environments/mazes/maze.py (Maze), polarmaze.py (PolarMaze) and tasks/mdp.py (MDPMazeTask).
* `Model/Maze89.lean`: Model of pybrain/rl/environments/mazes/tasks/maze89state.py (EightyNineStateMaze): a MazeTask (Verif.Model.MazeTask) whose environment is the PolarMaze of Verif.Model.Maze.
* `Model/MazeTask.lean`: Model of pybrain/rl/environments/mazes/tasks: maze.py (MazeTask), cheesemaze.py (CheeseMaze), maze4x3.py (FourByThreeMaze), tmaze.py (TMaze), shuttle.py (ShuttleDocking), tiger.py (TigerTask), with the parts of pomdp.py and ../../episodic.py they use.
* `Model/MdLstm.lean`: Model of pybrain/structure/modules/mdlstm.py (MDLSTMLayer).
* `Model/MdNet.lean`: Model of the connections between the states of the cells in pybrain/structure/networks/multidimensional.py (MultiDimensionalLSTM).
* `Model/Mdrnn.lean`: Model of pybrain/structure/modules/mdrnnlayer.py (the parameters) and pybrain/structure/networks/mdrnn.py (the permutations of the swiping directions).
* `Model/Memetic.lean`: Model of pybrain/optimization/memetic: memetic.py, inversememetic.py, innermemetic.py, innerinversememetic.py.
* `Model/Mesh.lean`: Model of slices and meshes of modules, and of networks assembled from them: pybrain/structure/moduleslice.py (ModuleSlice), pybrain/structure/modulemesh.py (ModuleMesh), the slices of pybrain/structure/connections/connection.py (Connection.__init__), shared full connections.
* `Model/MinHash.lean`: Model of `pybrain/supervised/knn/lsh/minhash.py`: locality sensitive hashing of 0/1 arrays.
* `Model/Mixture.lean`: Model of the mixtures of Gaussians of `pybrain/tools/mixtures/mixtureofgaussian.py` and `pybrain/tools/mixtures/mogpuremax.py`.
* `Model/Mnist.lean`: Model of pybrain/tools/datasets/mnist.py: reading the files of the MNIST database.
* `Model/MultiBench.lean`: Model of pybrain/rl/environments/functions/multiobjective.py, unbounded.py and lennardjones.py, over the reals.
* `Model/MultiObjective.lean`: Model of pybrain/optimization/populationbased/multiobjective/nsga2.py (MultiObjectiveGA) and constnsga2.py (ConstMultiObjectiveGA), and of the parts of optimizer.py, ga.py, function.py, transformations.py and multiobjective.py (functions) they use.
* `Model/Multiline.lean`: Model of pybrain/tools/plotting/multiline.py (MultilinePlotter).
* `Model/NES.lean`: Model of `XNES` (optimization/distributionbased/xnes.py) and `SNES` (optimization/distributionbased/snes.py).
* `Model/NFQ.lean`: Model of rl/learners/valuebased/nfq.py and of ActionValueNetwork in rl/learners/valuebased/interface.py.
* `Model/NNTools.lean`: Model of `runTraining` and `saveTrainingCurve` in pybrain/tools/neuralnets.py (NNregression, lines 99-158, and NNclassifier, lines 211-282; they differ in the measure of errors and in the error that counts as the best one so far in the beginning: infinity or 100).
* `Model/NaturalGradient.lean`: Model of `NaturalGradient` and `IRpropPlus` (pybrain/auxiliary/gradientdescent.py:97-174). Numbers are elements of a field, arrays of `n` parameters functions on `Fin n`.
* `Model/NearOptimal.lean`: Model of `pybrain/supervised/knn/lsh/nearoptimal.py`: hashing of points of a Euclidean space into balls of shifted grids.
* `Model/NelderMead.lean`: Model of pybrain/optimization/neldermead.py: the wrapper of scipy's `fmin`.
* `Model/Network.lean`: Model of the network machinery: pybrain/structure/networks/feedforward.py (FeedForwardNetworkComponent) pybrain/structure/modules/module.py (Module.activate, forward, backActivate, backward, reset) pybrain/structure/connections/connection.py (Connection.forward, backward; slices)
* `Model/NonDominated.lean`: Model of pybrain/tools/nondominated.py and of nsga2select (pybrain/optimization/populationbased/multiobjective/nsga2.py).
* `Model/Normalizer.lean`: Model of `DataSetNormalizer` (`pybrain/tools/datasettools.py`).
* `Model/Ode.lean`: # Sensors and actuators of the ODE environment (`ode/environment.py`, `ode/sensors.py`, `ode/actuators.py`)
* `Model/OdeConfig.lean`: # Parameters at the end of XODE files and objects that pass each other (`ode/tools/configgrab.py`, `ode/tools/xodetools.py`, `ode/environment.py`)
* `Model/OdeTasks.lean`: # Tasks in the ODE environment (`ode/tasks/johnnie.py`, `ode/tasks/ccrl.py`, `ode/instances/ccrl.py`)
* `Model/OdeUpdates.lean`: Model of the threads that send the state of an ODE world to its viewers: `step` and `updateClients` of pybrain/rl/environments/ode/environment.py.
* `Model/OdeViewer.lean`: Model of what the viewer of ODE environments shows (`pybrain/rl/environments/ode/viewer.py` and `tools/mathhelpers.py`): the camera, the placement of objects, planes, and the names of screenshots.
* `Model/Optimizer.lean`: Model of pybrain/optimization/optimizer.py (BlackBoxOptimizer) and hillclimber.py, randomsearch.py.
* `Model/Osy.lean`: Model of the benchmark function `ConstOsy` (pybrain/rl/environments/functions/multiobjective.py), over the reals.
* `Model/PCA.lean`: Model of `pybrain/auxiliary/pca.py`: `makeCentered`, `pca`, `pPca` and `reduceDim`. Data sets are matrices over the reals (floats are idealised), the rows are the points. `eig` is an argument (scipy's routine returns complex numbers; the eigenvalues of the symmetric covariance matrix are real and are modelled as such). `inv` fails on a singular matrix and is the inverse otherwise. The loop of `pPca` has a bound on the number of rounds.
* `Model/PSO.lean`: Model of pybrain/optimization/populationbased/pso.py (ParticleSwarmOptimizer).
* `Model/Params.lean`: Model of parameter storage: pybrain/structure/parametercontainer.py (ParameterContainer) pybrain/structure/networks/network.py (_containerIterator, _setParameters, _setDerivatives, sortModules, copy)
* `Model/Players.lean`: Model of the players in pybrain/rl/environments/twoplayergames/capturegameplayers (randomplayer.py, nonsuicide.py, killing.py, moduledecision.py) and gomokuplayers/moduledecision.py, and of CaptureGame.getBoardArray, getAcceptable, getKilling and playToTheEnd.
* `Model/PolicyGradient.lean`: Model of pybrain/rl/learners/directsearch/policygradient.py (PolicyGradientLearner with the default NormalExplorer), reinforce.py and enac.py, with the parts of LearningAgent (rl/agents/learning.py), LoggingAgent and ReinforcementDataSet that feed them.
* `Model/PolicyIteration.lean`: Model of pybrain/rl/learners/modelbased/policyiteration.py and of `all_argmax` (pybrain/utilities.py:693-696).
* `Model/Py.lean`: Small helpers for Python semantics shared by all model files.
* `Model/Queued.lean`: Model of `QueuedExperiment` (pybrain/rl/experiments/queued.py) on top of the model of experiments, agents and histories (`Verif.Model.Agent`).
* `Model/RWR.lean`: Model of pybrain/rl/learners/directsearch/rwr.py (reward-weighted regression).
* `Model/Rank1.lean`: Model of pybrain/optimization/distributionbased/rank1.py (natural evolution strategies with covariances of rank one plus a multiple of the identity).
* `Model/Ranking.lean`: Model of pybrain/tools/rankingfunctions.py. Fitnesses are real numbers (no NaN), floating point is idealised.
* `Model/Rbm.lean`: Model of pybrain/structure/networks/rbm.py (Rbm), pybrain/unsupervised/trainers/rbm.py (RbmGibbsTrainer, RbmBernoulliTrainer, RbmGaussTrainer), pybrain/structure/modules/samplelayer.py (BernoulliLayer) and of the errors of pybrain/unsupervised/trainers/deepbelief.py (DeepBeliefTrainer).
* `Model/Recurrent.lean`: Model of pybrain/structure/networks/recurrent.py (RecurrentNetworkComponent) with the time dimension of the buffers (pybrain/structure/modules/module.py, networks/network.py).
* `Model/Relative.lean`: Model of pybrain/rl/environments/twoplayergames/tasks/relativetask.py (RelativeCaptureTask) and relativegomokutask.py (RelativeGomokuTask).
* `Model/RendererStart.lean`: Model of `Renderer.start` of pybrain/rl/environments/renderer.py, called by any number of threads at any time.
* `Model/Renderers.lean`: Model of the threads that draw environments: pybrain/rl/environments/simple/renderer.py (SimpleRenderer) and pybrain/rl/environments/cartpole/renderer.py (CartPoleRenderer).
* `Model/Resampling.lean`: Model of `AdaptiveResampler` (`pybrain/tools/aptativeresampling.py`).
* `Model/RlGlue.lean`: Model of pybrain/tools/rlgluebridge.py: RlglueAgentAdapter, BenchmarkingAgent and RlCompBenchmark.run.
* `Model/Search.lean`: Model of the graph searches of pybrain/utilities.py. Python sets are finite sets; `stepFunction` returns any iterable, here a list. The first argument of the loops bounds the number of turns; running out of it is `none` (the loop has not ended).
* `Model/SeqOneOfK.lean`: Model of `SequenceClassificationDataSet` (datasets/classification.py:198-282) in the 1-of-k representation made by `_convertToOneOfMany` (classification.py:130-154), for at least two classes, on top of the model with class numbers (`Verif.Model.SequenceClass`). The type of the array of targets is taken to be integer, and so are the bounds.
* `Model/SeqValidation.lean`: Model of the validation of modules on sequences in pybrain/tools/validation.py: SequenceHelper, ModuleValidator and testOnSequenceData.
* `Model/SequenceClass.lean`: Model of `SequenceClassificationDataSet`, datasets/classification.py:198-282, with the methods it inherits from `SequentialDataSet` (sequential.py) and `ClassificationDataSet` (classification.py:100-112).
* `Model/Sequential.lean`: Model of pybrain/datasets/sequential.py (class SequentialDataSet; also the linked-field layout of ReinforcementDataSet, reinforcement.py:9-32, and ImportanceDataSet, importance.py:18-21).
* `Model/Ship.lean`: Model of pybrain/rl/environments/shipsteer: shipsteer.py (ShipSteeringEnvironment without rendering) and northwardtask.py (GoNorthwardTask).
* `Model/SimpleEnv.lean`: Model of `SimpleEnvironment` (`pybrain/rl/environments/simple/environment.py`) and `MinimizeTask` (`pybrain/rl/environments/simple/tasks.py`), with the parts of `EpisodicTask`, `Task` and `EpisodicExperiment` they use, without limits of sensors and actors and without discount.
* `Model/Simplerace.lean`: Model of pybrain/rl/environments/simplerace: simpleracetcp.py (SimpleraceEnvironment) and simplecontroller.py, with the strings and `string.split` of Python 2 (Python 3 has no `string.split`, and `send` takes bytes there).
* `Model/SparseData.lean`: Model of ClassificationDataSet.load_libsvm (pybrain/datasets/classification.py) and of SVMData (pybrain/tools/svmdata.py).
* `Model/SvmSearch.lean`: Model of pybrain/supervised/trainers/svmtrainer.py: the searches for parameters (GridSearch, GridSearchDOE).
* `Model/SvmTrainer.lean`: Model of pybrain/supervised/trainers/svmtrainer.py (SVMTrainer) and pybrain/structure/modules/svmunit.py (SVMUnit). The searches are in Verif.Model.SvmSearch.
* `Model/Swiping.lean`: Model of pybrain/structure/networks/swiping.py (SwipingNetwork) as built by pybrain/structure/networks/multidimensional.py (MultiDimensionalRNN) with hidden layers without parameters (not MDLSTM), and without predefined connections.
* `Model/Task.lean`: Model of pybrain/rl/environments/task.py (scaling of sensors and actors) and pybrain/rl/environments/episodic.py (episodic tasks: accumulated rewards, evaluation of a module).
* `Model/TopoSort.lean`: Model of Network._topologicalSort (pybrain/structure/networks/network.py:174-213).
* `Model/Tournament.lean`: Model of pybrain/rl/experiments/tournament.py (Tournament) and of the parts of twoplayergame.py it uses.
* `Model/Trainer.lean`: Model of pybrain/supervised/trainers/backprop.py (BackpropTrainer.train, _calcDerivs, testOnData) and of pybrain/supervised/trainers/rprop.py (RPropMinusTrainer.train), with the error computation of pybrain/datasets/supervised.py and importance.py (_evaluateSequence).
* `Model/Udp.lean`: Model of pybrain/tools/networking/udpconnection.py: the server and the client that exchange lists over UDP.
* `Model/UdpThreads.lean`: Model of `UDPServer` of pybrain/tools/networking/udpconnection.py, used by two threads: one of them sends (as `reset` of an environment does, without a lock) while the other one listens (as the thread of `updateRenderer`).
* `Model/UpdateThreads.lean`: Model of the threads that send the state of an environment to its viewers: `performAction`, `reset` and `updateRenderer` of pybrain/rl/environments/shipsteer/shipsteer.py with the decorator `threaded` of pybrain/utilities.py. The lock and the flag are used in the same way in ode/environment.py (`OdeUpdates`) and flexcube/environment.py, but there a message is made of several values; for the flexible cube this is not modelled.
* `Model/Utilities.lean`: Model of helpers in pybrain/utilities.py that are used by programs that run experiments: memoized functions, statistics, dictionaries, names, and small tools of linear algebra. Real numbers stand for floats; dictionaries are lists of pairs in the order of iteration.
* `Model/VES.lean`: Model of pybrain/optimization/distributionbased/ves.py (vanilla gradient evolution strategies) and nes.py (exact and original natural evolution strategies): derivatives, baselines, updates and densities.
* `Model/VESOptions.lean`: Model of the options of pybrain/optimization/distributionbased/ves.py that Verif.Model.VES leaves out: `vanillaScale`, `momentum`, `elitism` and online learning.
* `Model/Validation.lean`: Model of pybrain/tools/validation.py: Validator.classificationPerformance, Validator.MSE and CrossValidator.validate. A sample is a pair (input row, target row); training and testing are an arbitrary function of the fold number, the training samples and the test samples (the trainer is deep-copied for every fold, line 318, so folds do not influence each other).
* `Model/ValueBased.lean`: Model of the table based learners of pybrain/rl/learners/valuebased: q.py (Q), sarsa.py (SARSA), qlambda.py (QLambda), with the table of interface.py (ActionValueTable) and structure/modules/table.py (Table).
* `Model/Variations.lean`: Model of pybrain/tools/plotting/quickvariations.py (plotVariations).
* `Model/Viewers.lean`: Model of what the viewers of the flexible cube and of the ship make of the messages of their environments: `drawIdleScene` of pybrain/rl/environments/flexcube/viewer.py and of pybrain/rl/environments/shipsteer/viewer.py, with the messages of flexcube/environment.py and shipsteer/shipsteer.py as they pass through pybrain/tools/networking/udpconnection.py.
* `Model/Windows.lean`: Model of `convertSequenceToTimeWindows` (`pybrain/tools/datasettools.py`).
* `Model/XmlHandling.lean`: Model of pybrain/tools/customxml/handling.py, and of `fListToString` (pybrain/utilities.py:235-240).
* `Model/XmlNet.lean`: Model of saving networks to and reading them from XML files: pybrain/tools/customxml/networkwriter.py, networkreader.py, handling.py pybrain/utilities.py:90-106, 134-143 (setAllArgs, XMLBuildable) and of the constructors that the reader calls (pybrain/structure/modules, pybrain/structure/connections).
* `Model/Xode.lean`: # XML structures and XODE files (`ode/tools/xmltools.py`, `ode/tools/xodetools.py`)
* `Model/XodeBody.lean`: Model of the parsers of bodies, masses and geoms in XODE files (`pybrain/rl/environments/ode/xode_changes/body.py` and `geom.py`).
* `Model/Xor.lean`: Model of pybrain/rl/environments/classic/xor.py: XORTask and XORChainTask.

Not modelled: the libraries for graphics, windows and sockets themselves (where drawing or sending is named above, the model is about the calls that are made), the threads of the flexible cube's updates, the physics engine of the ODE environment (an argument of its model), compiled `arac` networks, SVM bindings,
file formats other than those named above, floating point rounding.
Of the parts named above, what a definition leaves out is said in its comment.
The co-evolution optimisers (`pybrain/optimization/populationbased/coevolution`) cannot be imported at this commit (they import the module from a path that does not exist); they are modelled as they are written (C162, C163, C176, C177). `mdrnnlayer.py` and `mdrnn.py` are placeholders for compiled code: what they compute in Python is modelled (C158), the compiled part is not.
