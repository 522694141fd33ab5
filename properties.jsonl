{"id": "C01", "title": "Linked dataset fields stay in lockstep", "statement": "After any sequence of DataSet API calls (addField, setField, linkFields, unlinkFields, append, appendLinked, clear, and calls that raise), all fields that are currently linked hold the same number of rows; a call that raises leaves the stored rows as they were.", "quantifier": "every finite history of public calls on a fresh DataSet, every number and naming of fields, every row value", "why_tests_cant": "The guarantee is about histories: a test exercises a handful of call orders, but desynchronisation needs a particular interleaving of link, append and clear calls.", "anchors": ["pybrain/datasets/dataset.py: DataSet.addField, setField, linkFields, unlinkFields, append, appendLinked, clear"]}
{"id": "C02", "title": "Appended rows are read back exactly", "statement": "A DataSet behaves as a growing list of rows: getField(label) after n appends returns exactly the appended rows in order, and getLinked(i) returns the i-th appended tuple, independently of the over-allocation of the storage buffer and of how often the buffer was enlarged.", "quantifier": "every number of appends, every row content, every buffer growth history", "why_tests_cant": "Buffer growth happens at sizes tests rarely reach and stale padding is visible only for particular contents.", "anchors": ["pybrain/datasets/dataset.py: DataSet._resizeArray, _resize, _appendUnlinked, appendLinked, getField, getLinked, getLength"]}
{"id": "C03", "title": "Cursor iteration visits every linked row exactly once", "statement": "After reset(), repeatedly calling getLinked() while endOfData() is false returns every row once, in insertion order, and then endOfData() is true; a further getLinked() raises and does not return a row.", "quantifier": "every dataset length and content", "why_tests_cant": "Off-by-one errors at the end of data depend on length and cursor history.", "anchors": ["pybrain/datasets/dataset.py: DataSet.getLinked, endOfData, reset"]}
{"id": "C04", "title": "Batches cover the data exactly once", "statement": "batches(label, n, permutation) yields chunks of size n (only the last may be shorter and none is empty); their concatenation is the field itself; with a permutation of the batch numbers the same batches come in that order; randomBatches yields every row exactly once, in random order.", "quantifier": "every field length, every batch size n >= 1, every permutation of the batch numbers", "why_tests_cant": "Boundary behaviour depends on divisibility of length by n, which is unbounded.", "anchors": ["pybrain/datasets/dataset.py: DataSet.batches, randomBatches"]}
{"id": "C05", "title": "Sequences partition the samples of a SequentialDataSet", "statement": "After any history of addSample/appendLinked and newSequence calls, concatenating getSequence(0..getNumSequences()-1) gives all samples in insertion order, the sequence lengths add up to getLength(), and each newSequence() call begins a new sequence unless the current one is empty.", "quantifier": "every history of newSequence calls and addSample calls with samples of the declared widths (ill-shaped samples are the subject of C01)", "why_tests_cant": "The sequence index is incremental state; only some interleavings (empty sequences, newSequence on empty data) expose mistakes.", "anchors": ["pybrain/datasets/sequential.py: SequentialDataSet.newSequence, _getSequenceField, getSequence, getSequenceLength, getNumSequences, getSequenceIterator"]}
{"id": "C06", "title": "removeSequence removes exactly one sequence", "statement": "removeSequence(i) raises for an index out of range; otherwise the dataset afterwards contains exactly the other sequences, each with its samples unchanged and in the original order.", "quantifier": "every sequential dataset, every index i", "why_tests_cant": "First, middle and last sequences take different branches, and errors only show for later reads of other sequences.", "anchors": ["pybrain/datasets/sequential.py: SequentialDataSet.removeSequence", "pybrain/datasets/classification.py: SequenceClassificationDataSet.removeSequence"]}
{"id": "C07", "title": "Proportional splits lose and duplicate nothing", "statement": "splitWithProportion(p) returns two datasets that together hold every sample exactly once (for sequential data: every sequence, intact), with int(p*n) items in the first.", "quantifier": "every dataset, every proportion, every outcome of the random permutation", "why_tests_cant": "The random permutation has n! outcomes.", "anchors": ["pybrain/datasets/supervised.py: SupervisedDataSet.splitWithProportion", "pybrain/datasets/sequential.py: SequentialDataSet.splitWithProportion"]}
{"id": "C08", "title": "One-of-many conversion is reversible", "statement": "On a ClassificationDataSet whose class labels are 0..nClasses-1, _convertToOneOfMany followed by _convertToClassNb restores the original targets, and each one-of-many row has exactly one upper bound, at the class index.", "quantifier": "every list of class labels, every number of classes, every pair of bounds lo < hi", "why_tests_cant": "Must hold for every label vector and every bounds choice.", "anchors": ["pybrain/datasets/classification.py: _convertToOneOfMany, _convertToClassNb, calculateStatistics", "pybrain/tools/validation.py: Validator.oneOfManyToClasses"]}
{"id": "C09", "title": "splitByClass separates one class from the rest", "statement": "splitByClass(c) returns two datasets, the first with exactly the samples of class c and the second with exactly the others, both in original order; calculateStatistics' histogram adds up to the number of samples.", "quantifier": "every list of labels, every selected class", "why_tests_cant": "Universal over label vectors.", "anchors": ["pybrain/datasets/classification.py: ClassificationDataSet.splitByClass, calculateStatistics"]}
{"id": "C10", "title": "sortModules orders modules topologically or reports a loop", "statement": "sortModules succeeds exactly when the (non-recurrent) connection graph is acyclic; then every module appears exactly once and after all modules that feed it. On a cyclic graph it raises NetworkConstructionException.", "quantifier": "every finite set of modules and every finite multigraph of connections between them, including parallel connections and self loops", "why_tests_cant": "Graphs are unbounded; ordering bugs appear only on special shapes.", "anchors": ["pybrain/structure/networks/network.py: Network._topologicalSort, sortModules"]}
{"id": "C11", "title": "The flat parameter vector is a faithful view", "statement": "After sortModules, setting net.params to a vector and reading each component's params gives consecutive, non-overlapping slices covering the vector; reading net.params returns the vector, and writing a component's params through its own view is visible in the network's vector.", "quantifier": "every list of parametrised components and every parameter vector of the right length", "why_tests_cant": "Slice offsets are sums over arbitrarily many components.", "anchors": ["pybrain/structure/networks/network.py: Network._setParameters, sortModules, _containerIterator", "pybrain/structure/parametercontainer.py: ParameterContainer._setParameters"]}
{"id": "C12", "title": "Feed-forward activation computes the network function", "statement": "FeedForwardNetwork.activate(x) returns, for any sorted acyclic network, the value defined by the graph: each module applied to the sum of its incoming connections' outputs; the result does not depend on earlier activations nor on which topological order was chosen.", "quantifier": "every acyclic network, every choice of module and connection functions, every input, every activation history", "why_tests_cant": "Quantifies over all graphs and histories.", "anchors": ["pybrain/structure/networks/feedforward.py: FeedForwardNetworkComponent.activate, _forwardImplementation", "pybrain/structure/modules/module.py: Module.activate, forward, reset"]}
{"id": "C13", "title": "Backpropagation computes the true gradient of the network", "statement": "backActivate(e) after activate(x) leaves in derivs the gradient of <e, output> with respect to every parameter and returns its gradient with respect to x.", "quantifier": "every acyclic network of differentiable modules, every weight vector, input and output error", "why_tests_cant": "Gradient checks sample finitely many nets and points with tolerance; the theorem is exact and for all nets.", "anchors": ["pybrain/structure/networks/feedforward.py: FeedForwardNetworkComponent._backwardImplementation", "pybrain/structure/connections/full.py", "pybrain/structure/modules/neuronlayer.py"]}
{"id": "C14", "title": "Each layer's backward pass is the transpose of its derivative", "statement": "For LinearLayer, SigmoidLayer, TanhLayer, ReluLayer, SoftSignLayer, MultiplicationLayer, GateLayer, DoubleGateLayer, SwitchLayer, LSTM-free layers, the backward implementation returns the exact vector-Jacobian product of the forward implementation (away from non-differentiable points).", "quantifier": "every layer dimension, every real input vector, every error vector", "why_tests_cant": "Real-valued inputs and dimensions are unbounded; numeric checks have tolerance and miss saturation points.", "anchors": ["pybrain/structure/modules/linearlayer.py", "pybrain/structure/modules/sigmoidlayer.py", "pybrain/structure/modules/tanhlayer.py", "pybrain/structure/modules/relulayer.py", "pybrain/structure/modules/softsign.py", "pybrain/structure/modules/gate.py", "pybrain/structure/modules/softmax.py", "pybrain/tools/functions.py"]}
{"id": "C15", "title": "Each connection's backward pass is its exact adjoint", "statement": "For IdentityConnection, FullConnection, LinearConnection, FullNotSelfConnection and PermutationConnection, the backward implementation passes back the adjoint of the forward map and accumulates the exact parameter derivative.", "quantifier": "every dimension, every parameter vector, every input and error, every permutation", "why_tests_cant": "Universal over dimensions and permutations (a permutation bug is invisible on involutions).", "anchors": ["pybrain/structure/connections/identity.py", "pybrain/structure/connections/full.py", "pybrain/structure/connections/linear.py", "pybrain/structure/connections/fullnotself.py", "pybrain/structure/connections/permutation.py"]}
{"id": "C16", "title": "Recurrent activation is independent of buffer management", "statement": "Activating a recurrent network on a sequence x1..xT after reset() yields the outputs of the unrolled recurrence; enlarging the internal buffers never changes a computed or future value.", "quantifier": "every recurrent network, every sequence length T", "why_tests_cant": "Buffer doubling happens at powers of two; sequences are unbounded.", "anchors": ["pybrain/structure/networks/recurrent.py: RecurrentNetworkComponent.activate, _forwardImplementation", "pybrain/structure/modules/module.py: Module._growBuffers, activate, reset"]}
{"id": "C17", "title": "Gray code conversion is a bijection", "statement": "gray2int(int2gray(n)) == n for every n >= 0, int2gray(gray2int(g)) == g, and int2gray of consecutive integers differ in exactly one bit.", "quantifier": "every natural number", "why_tests_cant": "Infinite domain.", "anchors": ["pybrain/utilities.py: int2gray, gray2int, asBinary"]}
{"id": "C18", "title": "Enumeration helpers enumerate exactly once", "statement": "iterCombinations, crossproduct and dictCombinations yield each combination in the Cartesian product exactly once, and nothing else.", "quantifier": "every tuple of bounds / list of lists / dictionary of lists", "why_tests_cant": "Unbounded arity and sizes.", "anchors": ["pybrain/utilities.py: iterCombinations, crossproduct, dictCombinations"]}
{"id": "C19", "title": "flood computes the reachable set", "statement": "flood(stepFunction, fullSet, initSet) returns exactly the elements of fullSet reachable from initSet through stepFunction inside fullSet; reachable(stepFunction, start, destinations) returns the destinations that can be reached.", "quantifier": "every finite set and every step function", "why_tests_cant": "Graph shapes are unbounded; the bug in one helper needs a path that passes through another destination.", "anchors": ["pybrain/utilities.py: flood, reachable"]}
{"id": "C20", "title": "Triangular packing is lossless", "statement": "flat2triu(triu2flat(M), n) == M for every upper triangular n x n matrix M and triu2flat(flat2triu(v, n)) == v for every v of length n(n+1)/2.", "quantifier": "every dimension n, every matrix", "why_tests_cant": "Index arithmetic over unbounded n.", "anchors": ["pybrain/utilities.py: triu2flat, flat2triu"]}
{"id": "C21", "title": "The non-dominated front is exact", "statement": "non_dominated_front(items, key) returns exactly the items whose key is not dominated by another item's key; the incremental, fast and array versions agree.", "quantifier": "every finite collection of items, every key, every number of objectives", "why_tests_cant": "Set iteration order and ties vary; combinations unbounded.", "anchors": ["pybrain/tools/nondominated.py: _non_dominated_front_old, _non_dominated_front_fast, _non_dominated_front_merge, non_dominated_front"]}
{"id": "C22", "title": "Non-dominated sorting partitions the population into ranked fronts", "statement": "non_dominated_sort returns fronts that partition the items; the first front is the non-dominated set, and every item in front k+1 is dominated by an item of front k.", "quantifier": "every finite collection of items and objective vectors", "why_tests_cant": "Unbounded populations.", "anchors": ["pybrain/tools/nondominated.py: non_dominated_sort, const_non_dominated_sort"]}
{"id": "C23", "title": "NSGA-II selection keeps the requested number of the best", "statement": "nsga2select(pop, fitnesses, survivors) returns min(survivors, |pop|) distinct members; no front is used before all members of better fronts have been kept.", "quantifier": "every population, objective assignment, and survivors count", "why_tests_cant": "Ties in crowding distance and front sizes are unbounded.", "anchors": ["pybrain/optimization/populationbased/multiobjective/nsga2.py: nsga2select", "pybrain/tools/nondominated.py: crowding_distance"]}
{"id": "C24", "title": "rankedFitness is an order-respecting permutation", "statement": "rankedFitness(R) is a permutation of 0..n-1 and gives a strictly larger rank to a strictly larger fitness.", "quantifier": "every fitness list, including ties", "why_tests_cant": "Unbounded lengths and tie patterns.", "anchors": ["pybrain/tools/rankingfunctions.py: rankedFitness"]}
{"id": "C25", "title": "The optimizer reports the best evaluation it ever saw", "statement": "At every moment, bestEvaluation is the optimum (max or min as configured) of all evaluations made so far and bestEvaluable is an argument that attained it; equivalently for memory with storeAllEvaluations.", "quantifier": "every sequence of evaluations, every objective function, minimising or maximising", "why_tests_cant": "Quantifies over all histories.", "anchors": ["pybrain/optimization/optimizer.py: BlackBoxOptimizer._oneEvaluation, _bestFound, _setMinimize, _wasUnwrapped"]}
{"id": "C26", "title": "Minimising f equals maximising -f", "statement": "Running an optimizer with minimize=True on f takes the same decisions as with minimize=False on -f, and reports the negated best value.", "quantifier": "every objective, every initial point, every run of a deterministic-given-seed optimizer", "why_tests_cant": "Relates two unbounded runs.", "anchors": ["pybrain/optimization/optimizer.py: BlackBoxOptimizer._setMinimize, setEvaluator, _oneEvaluation, _bestFound"]}
{"id": "C27", "title": "Evaluation and step budgets are respected", "statement": "learn(k) performs at most k learning steps; with maxEvaluations=M the number of evaluations after learn() does not exceed M for optimizers whose step uses no more than batchSize evaluations.", "quantifier": "every budget, every step implementation within batchSize", "why_tests_cant": "Unbounded budgets and step sequences; off-by-one appears only at the stopping point.", "anchors": ["pybrain/optimization/optimizer.py: BlackBoxOptimizer.learn, _stoppingCriterion, _learnStep"]}
{"id": "C28", "title": "Hill climbing never gets worse", "statement": "Under HillClimber the accepted point's fitness never decreases over steps and equals the best evaluation seen.", "quantifier": "every objective, every sequence of mutations", "why_tests_cant": "Histories unbounded.", "anchors": ["pybrain/optimization/hillclimber.py: HillClimber._learnStep"]}
{"id": "C29", "title": "Masked parameters keep their complexity bounds", "statement": "Starting from a valid state, any sequence of topologyMutate calls keeps the number of active parameters between 1 and maxComplexity, and reading params then writing them back is the identity.", "quantifier": "every mask, every outcome of the random choices, every mutation history", "why_tests_cant": "Random outcomes and histories.", "anchors": ["pybrain/structure/evolvables/maskedparameters.py: MaskedParameters.topologyMutate, _flipBit, _applyMask, _setParameters, params"]}
{"id": "C30", "title": "Cross-validation folds partition the data", "statement": "CrossValidator.validate trains and tests n_folds times; every sample is in exactly one test fold; each training set is the complement of its test fold.", "quantifier": "every number of samples l and folds n with n < l, every permutation", "why_tests_cant": "All l, n and permutations.", "anchors": ["pybrain/tools/validation.py: CrossValidator.validate"]}
{"id": "C31", "title": "Grid search visits each grid point exactly once", "statement": "GridSearch2D evaluates every (c, gamma) pair of the grid exactly once and returns one with maximal performance.", "quantifier": "every grid size and every performance function", "why_tests_cant": "Grid sizes unbounded; interleaved enumeration is intricate.", "anchors": ["pybrain/tools/gridsearch.py: GridSearch2D.search, _calculateJobs, _permuteSequence"]}
{"id": "C32", "title": "DOE grid search stays in bounds", "statement": "Every point evaluated by GridSearchDOE lies inside the user-given parameter bounds and the returned point has the best validation performance among all evaluated.", "quantifier": "every pair of bounds, refinement level and performance function", "why_tests_cant": "Real-valued, unbounded refinement depth.", "anchors": ["pybrain/tools/gridsearch.py: GridSearchDOE.search, _calcGrid, _moveGridIntoBounds"]}
{"id": "C33", "title": "Capture-game bookkeeping equals the rules of the board", "statement": "After any sequence of doMove calls, getLiberties(pos) is the number of empty points adjacent to the stone's connected group and getGroupSize(pos) the size of that connected group; a move is judged suicide exactly when it would leave its own group without liberties and captures exactly when it takes the last liberty of an adjacent enemy group.", "quantifier": "every board size, every move sequence", "why_tests_cant": "Union-find like incremental bookkeeping over unbounded games.", "anchors": ["pybrain/rl/environments/twoplayergames/capturegame.py: CaptureGame.doMove, _setStone, _suicide, _capture, getLiberties, getGroupSize"]}
{"id": "C34", "title": "Gomoku declares a win exactly for five in a row", "statement": "After a legal move the mover wins exactly when the move completes a contiguous line of at least five own stones; the game is a draw exactly when the board is full without a winner.", "quantifier": "every board size, every position and move sequence", "why_tests_cant": "Positions unbounded.", "anchors": ["pybrain/rl/environments/twoplayergames/gomoku.py: GomokuGame.doMove, _fiveRow"]}
{"id": "C35", "title": "Pente captures and stone counts are consistent", "statement": "In Pente the number of stones on the board always equals the moves made minus the captured stones, and a move removes exactly the flanked enemy pairs.", "quantifier": "every sequence of legal moves on every board size", "why_tests_cant": "Histories unbounded.", "anchors": ["pybrain/rl/environments/twoplayergames/pente.py: PenteGame.doMove, _setStone, _killsWhich"]}
{"id": "C36", "title": "The maze agent never enters a wall", "statement": "Starting from a free cell, after any action sequence (random or not) perseus stands on a free cell; each action moves by one step in its direction if that cell is free and stays otherwise; four left turns in a polar maze are the identity.", "quantifier": "every maze topology, every action sequence", "why_tests_cant": "All mazes and histories.", "anchors": ["pybrain/rl/environments/mazes/maze.py: Maze.performAction, _moveInDir, reset", "pybrain/rl/environments/mazes/polarmaze.py: PolarMaze.performAction"]}
{"id": "C37", "title": "MDP maze observations identify the position", "statement": "MDPMazeTask.getObservation gives different numbers for different positions in the maze.", "quantifier": "every maze shape, every pair of positions", "why_tests_cant": "Only non-square mazes with particular positions collide.", "anchors": ["pybrain/rl/environments/mazes/tasks/mdp.py: MDPMazeTask.getObservation"]}
{"id": "C38", "title": "Tournaments play every ordered pair and count results correctly", "statement": "organize(repeat) plays every ordered pair of distinct agents exactly `repeat` times; a drawn game is counted as a draw for both players.", "quantifier": "every list of agents, every game outcome", "why_tests_cant": "All outcome patterns.", "anchors": ["pybrain/rl/experiments/tournament.py: Tournament._produceAllPairs, _oneGame, organize"]}
{"id": "C39", "title": "Elo updates conserve the total rating", "statement": "eloScore leaves the sum of all ratings unchanged and moves each rating towards results exceeding expectation.", "quantifier": "every number of players, every result table, every start score and k", "why_tests_cant": "Real-valued and unbounded.", "anchors": ["pybrain/rl/experiments/tournament.py: Tournament.eloScore"]}
{"id": "C40", "title": "Q-learning and SARSA keep values within the discounted return bounds", "statement": "If rewards lie in [rmin, rmax], 0 <= gamma < 1, 0 <= alpha <= 1 and the initial table lies in [rmin/(1-gamma), rmax/(1-gamma)], then after any number of learn() calls on any data all table entries stay in that interval; each update changes only the visited (state, action) entry.", "quantifier": "every dataset of sequences, every table size, every number of learn calls", "why_tests_cant": "Unbounded experience and real arithmetic.", "anchors": ["pybrain/rl/learners/valuebased/q.py: Q.learn", "pybrain/rl/learners/valuebased/sarsa.py: SARSA.learn", "pybrain/rl/learners/valuebased/interface.py: ActionValueTable"]}
{"id": "C41", "title": "Policy matrices are stochastic and greedy policies are greedy", "statement": "collapsedTransitions of stochastic transition matrices under a stochastic policy is a stochastic matrix; greedyQPolicy and greedyPolicy give probability-one rows supported on maximising actions; trueValues converges to the fixed point of the Bellman equation within gamma^n.", "quantifier": "every number of states and actions, every transition model, every policy", "why_tests_cant": "Real-valued universal.", "anchors": ["pybrain/rl/learners/modelbased/policyiteration.py: trueValues, trueQValues, collapsedTransitions, greedyPolicy, greedyQPolicy, randomPolicy"]}
{"id": "C42", "title": "Task scaling is invertible and bounded", "statement": "With sensor limits set, normalize maps [lo, hi] onto [-1, 1] and denormalize maps back; action values sent to the environment never leave the actor limits, and observations never leave [-1, 1].", "quantifier": "every limits list with lo < hi, every sensor/action vector", "why_tests_cant": "Out-of-range sensor values appear only at run time.", "anchors": ["pybrain/rl/environments/task.py: Task.setScaling, normalize, denormalize"]}
{"id": "C43", "title": "Logging agents record one sample per interaction in order", "statement": "A LoggingAgent driven by integrateObservation, getAction, giveReward in this order records exactly the tuple (observation, action, reward) for each cycle; any other order raises and records nothing.", "quantifier": "every sequence of calls", "why_tests_cant": "All interleavings of the three calls.", "anchors": ["pybrain/rl/agents/logging.py: LoggingAgent.integrateObservation, getAction, giveReward, reset"]}
{"id": "C44", "title": "trainUntilConvergence honours maxEpochs and restores the best weights", "statement": "trainUntilConvergence(maxEpochs=N) trains at most N epochs and leaves in the module the parameters with the lowest validation error seen, including those before training.", "quantifier": "every training dynamics, every validation-error sequence, every N", "why_tests_cant": "Depends on arbitrary error sequences.", "anchors": ["pybrain/supervised/trainers/backprop.py: BackpropTrainer.trainUntilConvergence"]}
{"id": "C45", "title": "Rprop step sizes stay in the configured range", "statement": "In rprop mode each parameter changes by at most deltamax per call, step sizes remain in [deltamin, deltamax], and every parameter moves in the direction of its gradient sign.", "quantifier": "every gradient sequence, every dimension", "why_tests_cant": "Unbounded gradient histories.", "anchors": ["pybrain/auxiliary/gradientdescent.py: GradientDescent.__call__"]}
{"id": "C46", "title": "Gradient descent with momentum follows its closed form", "statement": "After calls with gradients g1..gn the parameters equal the start plus the momentum-filtered, learning-rate-decayed sum of the gradients; with momentum 0 and decay 1 it is start + alpha * sum.", "quantifier": "every gradient sequence, momentum, alpha and decay", "why_tests_cant": "Unbounded sequence length.", "anchors": ["pybrain/auxiliary/gradientdescent.py: GradientDescent.__call__"]}
{"id": "C47", "title": "Removing the worst individuals keeps the best", "statement": "removeWorstIndividuals(n) removes exactly n individuals, none fitter than a survivor (for every n from 0 to the population size); individuals and fitness table stay consistent under any operation history.", "quantifier": "every population, fitness assignment, n and operation history", "why_tests_cant": "The boundary n=0 and ties are easy to miss.", "anchors": ["pybrain/supervised/evolino/gpopulation.py: SimplePopulation", "pybrain/supervised/evolino/filter.py: EvolinoSubSelection"]}
{"id": "C48", "title": "Min-hash lookup finds stored identical items first", "statement": "After any history of put calls, knn(item, k) returns at most k stored candidates sorted by decreasing Jaccard similarity, and an item identical to the query that was stored is among the candidates.", "quantifier": "every history of put calls, every query, every k, every choice of permutations", "why_tests_cant": "Random permutations and histories.", "anchors": ["pybrain/supervised/knn/lsh/minhash.py: MinHash.put, knn, _hash, _firstOne"]}
{"id": "C49", "title": "Network XML files round-trip", "statement": "Writing a network with NetworkWriter and reading it with NetworkReader gives a network with the same modules, input/output roles, connections and parameters.", "quantifier": "every network with distinct module names", "why_tests_cant": "All network structures; the failing case (a module that is both input and output) is unusual.", "anchors": ["pybrain/tools/customxml/networkwriter.py", "pybrain/tools/customxml/networkreader.py"]}
{"id": "C50", "title": "Time-window conversion keeps all full windows", "statement": "convertSequenceToTimeWindows(ds, n) produces for each sequence every non-overlapping full window of n samples.", "quantifier": "every sequential dataset, every window size", "why_tests_cant": "Only lengths that are multiples of the window, and the last sequence, fail.", "anchors": ["pybrain/tools/datasettools.py: convertSequenceToTimeWindows"]}
{"id": "C51", "title": "Function transformations keep the documented optimum", "statement": "oppositeFunction is an involution that swaps maximisation and minimisation; TranslateFunction and RotateFunction report as xopt a point where the transformed function takes the base function's optimum, and leave the base function's data unchanged.", "quantifier": "every base function, translation and rotation", "why_tests_cant": "Real-valued universal; aliasing visible only on reuse.", "anchors": ["pybrain/rl/environments/functions/transformations.py: oppositeFunction, TranslateFunction, RotateFunction"]}
{"id": "C52", "title": "buildNetwork connects layers as documented", "statement": "buildNetwork(d0, ..., dk) creates a chain of k+1 layers of the given sizes with a full connection between neighbours, a bias connection to each non-input layer when bias is on (and outputbias decides the last), and nothing else; unknown options raise.", "quantifier": "every list of layer sizes and every option combination", "why_tests_cant": "Unbounded number of layers and options.", "anchors": ["pybrain/tools/shortcuts.py: buildNetwork, _buildNetwork"]}
{"id": "C53", "title": "The length of a dataset without linked fields is its longest field", "statement": "When no fields are linked, len(ds) is the length of the longest field, as documented.", "quantifier": "every dataset without linked fields", "why_tests_cant": "Depends on field names in a way no test on usual names shows.", "anchors": ["pybrain/datasets/dataset.py: DataSet.getLength"]}
{"id": "C54", "title": "Adding classification datasets concatenates them", "statement": "a + b holds the samples of a followed by those of b, and its class field lists the classes of all samples.", "quantifier": "every pair of datasets with scalar targets and equal number of classes", "why_tests_cant": "Universal over data; the class field is separate state that must follow the targets.", "anchors": ["pybrain/datasets/classification.py: ClassificationDataSet.__add__, assignClasses"]}
{"id": "C55", "title": "Transfer function helpers: derivatives and ranges", "statement": "sigmoidPrime, tanhPrime, explnPrime and semilinearPrime are the derivatives of sigmoid, tanh, expln and semilinear; expln and semilinear are always positive; sigmoid stays strictly between 0 and 1.", "quantifier": "every real argument", "why_tests_cant": "Piecewise functions and clipping bounds: a statement about every real number and about limits.", "anchors": ["pybrain/tools/functions.py: sigmoid, sigmoidPrime, tanhPrime, expln, explnPrime, semilinear, semilinearPrime, safeExp"]}
{"id": "C56", "title": "backActivate can be repeated", "statement": "After one activate(x), calling backActivate(e) again returns the same input error and adds the same amount to the derivatives.", "quantifier": "every network, input and error, any number of calls", "why_tests_cant": "State left in the error buffers of inner modules; depends on the graph.", "anchors": ["pybrain/structure/modules/module.py: Module.backActivate", "pybrain/structure/networks/feedforward.py: FeedForwardNetworkComponent._backwardImplementation"]}
{"id": "C57", "title": "A copied network is equal and independent", "statement": "net.copy() shows the same parameters and derivatives, no operation on one of the two is visible in the other, and in the copy, too, the components' derivatives are slices of the network's derivative vector.", "quantifier": "every network and every history of parameter operations before and after copying", "why_tests_cant": "Aliasing of array views through deepcopy; histories are unbounded.", "anchors": ["pybrain/structure/networks/network.py: Network.copy", "pybrain/structure/parametercontainer.py: ParameterContainer._setParameters, _setDerivatives"]}
{"id": "C58", "title": "Forgetful recurrent networks compute the same with bounded memory", "statement": "With forget=True, the outputs on any sequence after reset() are those of the same network with forget=False, and the buffers stay at two time steps.", "quantifier": "every recurrent network, every sequence length", "why_tests_cant": "Sequences are unbounded; the state is shifted through the buffers at each step.", "anchors": ["pybrain/structure/networks/recurrent.py: RecurrentNetworkComponent._forwardImplementation, activate", "pybrain/structure/modules/module.py: Module.shift"]}
{"id": "C59", "title": "Back-propagation through time computes the gradient", "statement": "After reset(), activating a recurrent network on a sequence and back-activating the errors in reverse order adds to the derivatives exactly the gradient of the sum over time of the products of errors and outputs, and returns the gradient with respect to every input.", "quantifier": "every recurrent network of differentiable components, every sequence length, all parameters, inputs and errors", "why_tests_cant": "Chain rule over unrolled graphs of unbounded size.", "anchors": ["pybrain/structure/networks/recurrent.py: RecurrentNetworkComponent.backActivate, _backwardImplementation"]}
{"id": "C60", "title": "Binary and one-of-n codes", "statement": "asBinary(n) is the binary notation of n without leading zeros; n_to_one(one_to_n(v, n)) == v for v < n; binArr2int gives the integer written by an array of bits and tells arrays of the same length apart.", "quantifier": "every natural number, every array of bits", "why_tests_cant": "Infinite domains; padding in packbits depends on the length.", "anchors": ["pybrain/utilities.py: asBinary, one_to_n, n_to_one, binArr2int"]}
{"id": "C61", "title": "Block permutation and block diagonals", "statement": "permuteToBlocks puts every entry of a two- or three-dimensional array at its place in the linearised blocks and loses none, and raises an error for other numbers of dimensions; blockList2Matrix puts every block on the diagonal and zeros elsewhere.", "quantifier": "every array and block shape with the block width dividing the width (and the block height the height in three dimensions); every list of square matrices", "why_tests_cant": "Index arithmetic over unbounded shapes.", "anchors": ["pybrain/utilities.py: permuteToBlocks, permuteToBlocks2d, permuteToBlocks3d, blockList2Matrix"]}
{"id": "C62", "title": "Crowding distance protects the extremes", "statement": "In every objective an individual with the smallest and one with the largest value get the maximal crowding distance, so selection by crowding distance takes them first; every other individual's distance is the sum over the objectives of the normalised gap between its two neighbours, hence between 0 and the number of objectives.", "quantifier": "every list of distinct individuals, any number of objectives, any fitness values", "why_tests_cant": "Depends on all orderings of the individuals in all objectives, including ties.", "anchors": ["pybrain/tools/nondominated.py: crowding_distance"]}
{"id": "C63", "title": "Ranking functions preserve the order", "statement": "Every ranking function gives an individual with better fitness at least the utility of one with worse fitness; the scaled ones map to [0,1] and reach 1; TopSelection selects the best floor(n*fraction); TournamentSelection counts how often each individual wins.", "quantifier": "every list of fitnesses, all parameter settings in their documented range", "why_tests_cant": "Real-valued parameters and lists of any length.", "anchors": ["pybrain/tools/rankingfunctions.py: RankingFunction, TournamentSelection, SmoothGiniRanking, ExponentialRanking, HansenRanking, TopSelection, TopLinearRanking, BilinearRanking"]}
{"id": "C64", "title": "decrementAny lists exactly the neighbours below", "statement": "decrementAny(tup) returns exactly the tuples that differ from tup by lowering one positive coordinate by one, each exactly once, never negative.", "quantifier": "all tuples of non-negative integers of any length", "why_tests_cant": "infinitely many tuples and lengths", "anchors": ["pybrain/utilities.py: decrementAny"]}
{"id": "C65", "title": "Copies of masked evolvables are independent", "statement": "Mutating a copy of a MaskedParameters/MaskedModule leaves the original, including the parameters it computes with, unchanged.", "quantifier": "all masked containers and all operations on the copy", "why_tests_cant": "aliasing between copies depends on the history of operations", "anchors": ["pybrain/structure/evolvables/topology.py: TopologyEvolvable.copy", "pybrain/structure/evolvables/maskedparameters.py: MaskedParameters"]}
{"id": "C66", "title": "Validation measures", "statement": "The classification performance is the fraction of outputs equal to their target: in [0,1] and 1 exactly when all agree. The mean squared error is never negative, zero exactly when outputs and targets agree wherever the importance is not zero, and without importances equals the one with constant importances.", "quantifier": "all arrays of equal positive length, all non-negative importances not all zero", "why_tests_cant": "real-valued data of any length", "anchors": ["pybrain/tools/validation.py: Validator"]}
{"id": "C67", "title": "Q(lambda) uses the rewards and respects episodes", "statement": "QLambda.learn keeps table values within the discounted return bounds, learns from the rewards as given, and does not learn transitions from the end of one sequence to the start of the next.", "quantifier": "every dataset of sequences, every learning rate, discount and lambda in range", "why_tests_cant": "The update order, cut-off and truncation only matter for particular reward values and sequence layouts.", "anchors": ["pybrain/rl/learners/valuebased/qlambda.py: QLambda.learn"]}
{"id": "C68", "title": "Episodic tasks report the accumulated reward", "statement": "After a reset, the total reward of an episodic task is the sum of the rewards of all actions since then, discounted by the number of actions when a discount is set; evaluating a module with f gives the average total reward of batchSize full episodes, each from a reset environment and module.", "quantifier": "every task, environment, discount, module and number of episodes", "why_tests_cant": "Depends on the dynamics of arbitrary environments over episodes of any length.", "anchors": ["pybrain/rl/environments/episodic.py: EpisodicTask.reset, performAction, addReward, getTotalReward, f"]}
{"id": "C69", "title": "Experiments record what happened", "statement": "doInteractions(n) does exactly n interactions and returns their number; doEpisodes(n) runs n episodes from reset to finish and returns their rewards; a logging agent's history holds exactly the observations, actions and rewards of these interactions, one sequence per episode, and no call is out of order.", "quantifier": "every task, every agent policy, every number of interactions or episodes", "why_tests_cant": "Tasks and agents are arbitrary state machines.", "anchors": ["pybrain/rl/experiments/experiment.py: Experiment.doInteractions", "pybrain/rl/experiments/episodic.py: EpisodicExperiment.doEpisodes", "pybrain/rl/agents/logging.py: LoggingAgent"]}
{"id": "C70", "title": "Evolino selection and reproduction keep the best and refill", "statement": "One generation keeps the fittest quarter (or nParents) of every sub-population with fitness and genome unchanged and refills it to its full size with mutated clones of the fittest, distributed evenly; burst mutation keeps one fittest individual and refills with mutations of it; both terminate.", "quantifier": "every population size, fitness table and mutation", "why_tests_cant": "Depends on population sizes and ties; divergence cannot be observed by a test.", "anchors": ["pybrain/supervised/evolino/filter.py: EvolinoSubSelection, EvolinoSubReproduction, EvolinoBurstMutation"]}
{"id": "C71", "title": "Evolino combines every sub-individual equally often and credits the best result", "statement": "Each call of getIndividuals uses every sub-individual of every sub-population exactly nCombinations times, and after an evaluation the fitness of a sub-individual is the largest fitness of an individual containing it; the network is left with the genome of a best individual.", "quantifier": "every number and size of sub-populations, every random choice, every evaluation order and fitness", "why_tests_cant": "Random assembly: all choices have to be covered.", "anchors": ["pybrain/supervised/evolino/population.py: EvolinoPopulation.getIndividuals, setIndividualFitness", "pybrain/supervised/evolino/filter.py: EvolinoEvaluation.apply"]}
{"id": "C72", "title": "Euclidean hashing returns the nearest stored candidates", "statement": "After any insertions, MultiDimHash.knn(point, k) returns at most k inserted points by increasing distance, the nearest of its ball, and finds a stored point again.", "quantifier": "every sequence of insertions, every grid, radius and query, every dimension", "why_tests_cant": "Continuous domain and arbitrary histories.", "anchors": ["pybrain/supervised/knn/lsh/nearoptimal.py: MultiDimHash"]}
{"id": "C73", "title": "Dataset normalisation", "statement": "After calculate, normalize maps every column affinely and increasingly onto the bounds (or to mean 0 and variance 1), constant columns to a constant; parameters saved to a file are the ones loaded from it.", "quantifier": "every dataset, all bounds", "why_tests_cant": "Real-valued data of any shape; constant columns are corner cases.", "anchors": ["pybrain/tools/datasettools.py: DataSetNormalizer"]}
{"id": "C74", "title": "Benchmark functions have a single minimum of value zero at the optimum they report", "statement": "For every benchmark function of the library, f(x) >= 0 for all x, and f(x) = 0 exactly at the xopt the object reports; evaluating leaves the argument unchanged.", "quantifier": "every dimension, every real vector", "why_tests_cant": "Global optimality over a continuous space cannot be sampled.", "anchors": ["pybrain/rl/environments/functions/unimodal.py", "pybrain/rl/environments/functions/multimodal.py", "pybrain/rl/environments/functions/function.py: FunctionEnvironment"]}
{"id": "C75", "title": "Networks built by any sequence of calls", "statement": "After any history of addModule, addInputModule, addOutputModule, addConnection, addRecurrentConnection and sortModules calls, sortModules succeeds exactly when both ends of every connection were added and the forward connections have no cycle; then the modules are in an order that respects the connections, nothing added is lost or doubled, inputs and outputs are in order of first addition, the dimensions are the sums over them, and sorting again changes nothing.", "quantifier": "every sequence of construction calls, every iteration order of sets", "why_tests_cant": "Unbounded histories of calls, and set iteration order varies between runs.", "anchors": ["pybrain/structure/networks/network.py: Network.addModule, addInputModule, addOutputModule, addConnection, sortModules", "pybrain/structure/networks/recurrent.py: RecurrentNetworkComponent.addRecurrentConnection"]}
{"id": "C76", "title": "LSTM layers compute the recurrence and its exact gradient", "statement": "After a reset, activating an LSTM layer along a sequence gives the outputs of the LSTM equations, with or without peepholes; going back through the sequence returns the exact derivative of the errors with respect to every input and adds the exact derivative with respect to the peephole weights; nothing is left over from the previous sequence, and neither pass raises.", "quantifier": "every number of cells, every sequence length, all inputs, errors and peephole weights", "why_tests_cant": "Gradients through time over arbitrarily long sequences on a continuous domain.", "anchors": ["pybrain/structure/modules/lstm.py: LSTMLayer._forwardImplementation, _backwardImplementation, reset"]}
{"id": "C77", "title": "Drawing indices follows the given probabilities", "statement": "drawIndex(probs) returns index i with probability probs[i] and refuses arrays that are not probability distributions (or, when tolerant, draws in proportion to the weights); drawGibbs draws i with probability proportional to exp(vals[i]/temperature), and one of the best at temperature 0.", "quantifier": "every array of probabilities, weights or values, every temperature", "why_tests_cant": "A distribution over a continuous random number; tests see finitely many draws.", "anchors": ["pybrain/utilities.py: drawIndex, drawGibbs"]}
{"id": "C78", "title": "Explorers change actions as configured", "statement": "The epsilon-greedy explorer returns the greedy action unless its random number is below epsilon, in which case the random one, and epsilon decays geometrically; the backward pass of the normal explorer is the exact gradient of the log density scaled by the variance, and the state-dependent explorer has a defined gradient.", "quantifier": "every epsilon, decay, number of actions and steps; all real parameters, states and actions", "why_tests_cant": "Random numbers and unbounded histories; derivatives on a continuous domain.", "anchors": ["pybrain/rl/explorers/discrete/egreedy.py: EpsilonGreedyExplorer", "pybrain/rl/explorers/continuous/normal.py: NormalExplorer", "pybrain/rl/explorers/continuous/sde.py: StateDependentExplorer"]}
{"id": "C79", "title": "Genetic algorithm generations", "statement": "Selection keeps exactly the fittest; every generation has populationSize individuals of the right length, consisting of the kept elite, unchanged, and of mutated crossovers of selected parents inside the bounds; with elitism the best fitness never decreases.", "quantifier": "every population, fitness function, random choice and configuration", "why_tests_cant": "Arbitrary fitness landscapes and random histories.", "anchors": ["pybrain/optimization/populationbased/ga.py: GA", "pybrain/optimization/populationbased/evolution.py: Evolution"]}
{"id": "C80", "title": "Evolution strategy generations", "statement": "A (mu,lambda) or (mu+lambda) generation has constant size, is sorted best first, contains exactly lambda mutants, lambda/mu of each of the mu best, plus, with elitism, these mu best unchanged, so that then the best fitness never decreases; the step does exactly batchSize evaluations and records the new best in the hall of fame.", "quantifier": "every mu, lambda, fitness function, mutation and shuffle", "why_tests_cant": "Arbitrary fitness landscapes and random histories.", "anchors": ["pybrain/optimization/populationbased/es.py: ES"]}
{"id": "C81", "title": "Particle swarm steps", "statement": "Every learning step evaluates each particle once where it is; afterwards each particle remembers the best position it was ever evaluated at and its fitness; particles move by inertia, attraction to their own best position and attraction to the best position of their best neighbour; they start within the boundaries.", "quantifier": "every fitness function, neighbourhood, swarm size, random numbers and number of steps", "why_tests_cant": "Arbitrary fitness landscapes and random histories.", "anchors": ["pybrain/optimization/populationbased/pso.py: ParticleSwarmOptimizer, Particle"]}
{"id": "C82", "title": "A training epoch is gradient descent on the weighted squared error", "statement": "BackpropTrainer.train in online mode makes, for one sequence after the other, one momentum step along the exact steepest descent of that sequence's importance-weighted squared error at the parameters then in force, minus weight decay; in batch mode (and RPropMinusTrainer.train) one step along the steepest descent of the sum, whatever the order of the sequences; the derivatives do not leak into the next epoch; the returned value and testOnData are the weighted mean of the errors; none of these calls raises on a dataset that is not empty.", "quantifier": "every recurrent or feed-forward network with exact layers, all parameters and buffer contents, every dataset with or without importances, every shuffle", "why_tests_cant": "Continuous parameters, arbitrary datasets, orders and sequence lengths; the chain forward pass, back-propagation, accumulation and step must compose exactly.", "anchors": ["pybrain/supervised/trainers/backprop.py: BackpropTrainer.train, _calcDerivs, testOnData", "pybrain/supervised/trainers/rprop.py: RPropMinusTrainer.train", "pybrain/datasets/supervised.py: SupervisedDataSet._evaluateSequence", "pybrain/datasets/importance.py: ImportanceDataSet._evaluateSequence"]}
{"id": "C83", "title": "Gradient estimation from evaluated perturbations", "statement": "Every learning step of FiniteDifferences, SimpleSPSA and PGPE evaluates perturbations of the current point and moves it towards the better ones: FiniteDifferences by the gradient that fits the measured values best, exactly the gradient of a linear objective, SPSA and PGPE towards the better of two opposite perturbations, by a bounded amount; the exploration shrinks as configured and PGPE's standard deviations stay positive.", "quantifier": "every objective, direction of optimization, perturbation, pseudo-inverse and number of steps", "why_tests_cant": "Arbitrary real-valued objectives and random perturbations over histories of any length.", "anchors": ["pybrain/optimization/finitedifference/fd.py: FiniteDifferences", "pybrain/optimization/finitedifference/spsa.py: SimpleSPSA", "pybrain/optimization/finitedifference/pgpe.py: PGPE"]}
{"id": "C84", "title": "Policy gradient learners follow the gradient of the expected reward", "statement": "Every interaction stores the derivative of the log-likelihood of the executed action, in step with the rewards and episodes; REINFORCE and ENAC compute from them the baseline-corrected likelihood-ratio estimate and the natural gradient, and learn moves the parameters uphill.", "quantifier": "every differentiable policy, every history of interactions, episode ends, resets and learn calls", "why_tests_cant": "Continuous parameters, actions and rewards; unbounded histories with accumulated derivatives.", "anchors": ["pybrain/rl/learners/directsearch/policygradient.py: PolicyGradientLearner, LoggingLearner", "pybrain/rl/learners/directsearch/reinforce.py: Reinforce.calculateGradient", "pybrain/rl/learners/directsearch/enac.py: ENAC.calculateGradient"]}
{"id": "C85", "title": "Decomposition of parameters by neurons", "statement": "After sortModules of a neuron-decomposable network every parameter belongs to exactly one neuron: the one its weight leads to or, with ESP-style decomposition, the one it comes from if it leads to an output layer. getDecomposition followed by setDecomposition restores the parameters, and a decomposition that is set is the one read back.", "quantifier": "every network of neuron layers and connections, every iteration order of its modules, all parameter values", "why_tests_cant": "Index arithmetic over networks of any size and shape.", "anchors": ["pybrain/structure/networks/neurondecomposable.py: NeuronDecomposableNetwork.sortModules, getDecomposition, setDecomposition", "pybrain/structure/connections/full.py: FullConnection.whichBuffers"]}
{"id": "C86", "title": "Sequence classification datasets", "statement": "After any history of calls, a SequenceClassificationDataSet holds the sequences added and not removed; the class of a sequence is the target of its last sample; removeSequence removes the sequence with its classes; stratifiedSplit puts every sequence into exactly one of the sets, in each class the given fractions rounded down, with inputs unchanged and its class as targets.", "quantifier": "every history of calls, all fractions that sum to at most 1, every permutation drawn", "why_tests_cant": "Unbounded histories, index bookkeeping between three fields, random permutations.", "anchors": ["pybrain/datasets/classification.py: SequenceClassificationDataSet"]}
{"id": "C87", "title": "Importance mixing draws from the new distribution", "statement": "importanceMixing returns as many points as it was given: the positions of old points that pass a random test, in order, and new points accepted by a second test. At every point the two tests together give exactly the new density, and there is always a new point.", "quantifier": "all densities, old points, forced refresh rates and random draws", "why_tests_cant": "Random draws and real-valued densities; the exactness of the mixture is a statement about probabilities.", "anchors": ["pybrain/auxiliary/importancemixing.py: importanceMixing"]}
{"id": "C88", "title": "Natural evolution strategies keep a proper Gaussian and are invariant", "statement": "In every state reached by learning, the search distribution of XNES and SNES is a proper Gaussian (inverse, determinant and standard deviations consistent); every step evaluates batchSize points of it and moves it along the utility-weighted samples; the search depends only on the order of the fitnesses, does not depend on origin, scale or (XNES) orientation of the coordinates, and never goes downhill on a linear objective.", "quantifier": "every objective, dimension, random draws and number of steps, all settings", "why_tests_cant": "Unbounded histories of matrix exponentials over real vectors; invariance relates two whole runs.", "anchors": ["pybrain/optimization/distributionbased/xnes.py: XNES", "pybrain/optimization/distributionbased/snes.py: SNES"]}
{"id": "C89", "title": "CMA-ES keeps a positive definite covariance and recombines the best points", "statement": "For every dimension the strategy parameters of CMAES are in their admissible ranges. Every step moves the center to the weighted mean of the best half of the batch, keeps the covariance matrix symmetric and positive definite and the step size positive, and draws from the distribution they define; the run depends only on the order of the fitnesses (up to stopping) and not on origin or scale of the coordinates; it stops on a flat batch.", "quantifier": "every objective, dimension, random draws, eigenvalue routine and number of steps", "why_tests_cant": "Unbounded histories over real matrices; invariance relates two whole runs.", "anchors": ["pybrain/optimization/distributionbased/cmaes.py: CMAES, sorti"]}
{"id": "C90", "title": "Principal components capture the most variance", "statement": "pca(data, dim) returns dim orthogonal directions of length 1, by falling variance, along which the data are uncorrelated; no other dim orthonormal directions capture more variance or give a smaller reconstruction error. reduceDim returns the coordinates of every point along them, with mean 0 and without increasing distances. pPca converges to the same subspace by power iteration.", "quantifier": "all data sets, numbers of points, columns and components; every starting matrix of pPca", "why_tests_cant": "Optimality over all choices of directions cannot be tested; real matrices of any size.", "anchors": ["pybrain/auxiliary/pca.py: reduceDim, makeCentered, pca, pPca"]}
{"id": "C91", "title": "Seeds for k-means are greedy and distinct", "statement": "kinit(X, k) returns k points of the data: a random first one, then each time the point that reduces the sum of squared distances to the nearest seed most. The seeds are different if there are k different points.", "quantifier": "all data sets, k and first points", "why_tests_cant": "Optimality of every step over all points for data of any size.", "anchors": ["pybrain/auxiliary/kmeans.py: kinit"]}
{"id": "C92", "title": "Gaussian process regression computes the posterior", "statement": "After any history of training calls, GaussianProcess predicts for each given point the posterior mean given all samples since the last reset and the current mean and hyper parameters, with the posterior covariance: positive semidefinite, variances between 0 and the prior variance and at most the noise at training inputs, never larger with more data, independent of the order of the samples.", "quantifier": "every history of calls, all samples, test points and hyper parameters", "why_tests_cant": "Unbounded histories; positive semidefiniteness and monotonicity for every set of points.", "anchors": ["pybrain/auxiliary/gaussprocess.py: GaussianProcess"]}
{"id": "C93", "title": "Learners with linear function approximation", "statement": "The learning rate follows the schedule alpha (n0 + 1) / (n0 + k + 2) over episodes, whose sum diverges and whose squares converge; resetting starts it again. Boltzmann probabilities are a distribution in the ratio exp((q a - q b) / T). With one feature per state Q and SARSA are the table based algorithms along every episode; Q(lambda) with lambda 0 is Q; the eligibility traces are the discounted features of the episode; LSPI and LSTDQ(lambda) hold, whenever recomputed, the exact solution of the least-squares temporal difference equations; the traces and secondary weights of GQ(lambda) behave as published.", "quantifier": "all weights, features, rewards, parameters and histories of transitions and episodes", "why_tests_cant": "Real-valued weights over unbounded histories; equivalence of two algorithms along every run.", "anchors": ["pybrain/rl/learners/valuebased/linearfa.py: LinearFALearner, Q_LinFA, QLambda_LinFA, SARSALambda_LinFA, LSTDQLambda, LSPI, GQLambda"]}
{"id": "C94", "title": "The agent for linear function approximation tells its learner exactly the transitions", "statement": "In an experiment the learner is told every transition of every episode exactly once and in order, with the next action actually taken where it is wanted, and nothing else; learning from the stored history tells it the same; temperature and exploration rate decay once per episode; the actions are drawn from a proper distribution.", "quantifier": "every sequence of episodes, all options of agent and learner", "why_tests_cant": "Unbounded histories of calls.", "anchors": ["pybrain/rl/agents/linearfa.py: LinearFA_Agent", "pybrain/rl/agents/logging.py: LoggingAgent"]}
{"id": "C95", "title": "Least-squares value estimation with a model", "statement": "The two variants of trueFeatureStats agree and gather all transitions with their probabilities. LSTD_values returns the combination of features whose Bellman error is orthogonal to the features; with features that can express every function of the states LSTD_values and LSTD_Qvalues are the exact values, and LSPI_policy is policy iteration: its result cannot be improved once the policy no longer changes.", "quantifier": "all transition matrices, rewards, feature maps, discounts and least-squares solvers", "why_tests_cant": "Real matrices of any size; the agreement of a tensor formula with a loop, and optimality over all policies.", "anchors": ["pybrain/rl/learners/modelbased/leastsquares.py: trueFeatureStats, LSTD_values, LSTD_Qvalues, LSPI_policy, LSTD_PI_policy"]}
{"id": "C96", "title": "Neuro-fitted Q-learning trains on the Bellman targets", "statement": "NFQ.learn turns every transition of every recorded sequence into one training sample, input state and action as unit vector, target half way to the reward plus the discounted value of the best next action; different pairs are different inputs; the targets equal the values exactly where the network satisfies the Bellman optimality equation, and stay within the bounds of the discounted rewards. ActionValueNetwork chooses the first best action.", "quantifier": "all networks, datasets, numbers of actions and discounts", "why_tests_cant": "Arbitrary network functions and datasets of any size.", "anchors": ["pybrain/rl/learners/valuebased/nfq.py: NFQ.learn", "pybrain/rl/learners/valuebased/interface.py: ActionValueNetwork"]}
{"id": "C97", "title": "Maze tasks observe, reward and end episodes as documented", "statement": "CheeseMaze gives each combination of walls its own 1-in-n observation, also under noise. In FourByThreeMaze an action is executed with probability 0.8 and otherwise deflected to a side; the marked spot is absorbing with reward -1. In TMaze, of any length, the episode ends in either arm with reward 4 or -0.1, and the first observation tells which arm. In ShuttleDocking the goal is only reached backwards; Forward moves the shuttle; collisions cost 3. In TigerTask listening costs 1 and reveals the side with probability 0.85; opening a door ends the task with 10 or -100. Totals add up the rewards.", "quantifier": "all lengths of the corridor, all histories of actions and resets, all random draws", "why_tests_cant": "Histories and corridors of any length; probabilities of random draws.", "anchors": ["pybrain/rl/environments/mazes/tasks/cheesemaze.py: CheeseMaze", "pybrain/rl/environments/mazes/tasks/maze4x3.py: FourByThreeMaze", "pybrain/rl/environments/mazes/tasks/tmaze.py: TMaze", "pybrain/rl/environments/mazes/tasks/shuttle.py: ShuttleDocking", "pybrain/rl/environments/mazes/tasks/tiger.py: TigerTask"]}
{"id": "C98", "title": "The cart-pole environment simulates a pole on a cart", "statement": "The accelerations computed for the cart-pole are the unique solution of the equations of motion of a uniform pole hinged on a frictionless cart; along their exact solutions energy changes only by the work of the force; mirrored states and forces, and shifted positions, give mirrored and shifted simulations; an upright or hanging pole without force stays at rest. The linearised environment lets the state influence the position of the cart in the same way.", "quantifier": "all states, forces, physical constants and sequences of steps", "why_tests_cant": "Differential equations over the reals; simulations of any length.", "anchors": ["pybrain/rl/environments/cartpole/cartpole.py: CartPoleEnvironment._derivs, CartPoleEnvironment.step, CartPoleLinEnvironment.step"]}
{"id": "C99", "title": "Balancing tasks end and reward episodes as intended", "statement": "An action is a multiple of 50 Newton, cut at the limits (in the discrete tasks: left, nothing, right). Every episode ends at the latest after the maximal number of actions, and ends earlier exactly when a pole has fallen or the cart has left its track. The total reward is minus the number of steps away from the goal position, minus two for each step lost by failing; mirrored episodes get the same total. Observations determine the state; the radial basis functions lie in (0,1] and tell different angles and velocities apart. Tasks with one or two poles, with or without velocities, and the linearised task follow the same rules.", "quantifier": "all actions, states, numbers of steps and variants of the environment", "why_tests_cant": "Real-valued states, episodes of any length.", "anchors": ["pybrain/rl/environments/cartpole/balancetask.py: BalanceTask, JustBalanceTask, EasyBalanceTask, DiscreteBalanceTask, DiscreteBalanceTaskRBF, DiscreteNoHelpTask, LinearizedBalanceTask", "pybrain/rl/environments/cartpole/doublepole.py: DoublePoleEnvironment", "pybrain/rl/environments/cartpole/nonmarkovpole.py: NonMarkovPoleEnvironment", "pybrain/rl/environments/cartpole/nonmarkovdoublepole.py: NonMarkovDoublePoleEnvironment"]}
{"id": "C100", "title": "Mountain car: ranges, course and rewards of episodes", "statement": "Position and speed of the car stay in their documented ranges through any calls. In MountainCar (and AcrobotTask) every episode is decided by the first action that reaches the goal or by the last action allowed; it then ends, within one action more than the maximum; the total reward is the sum of the rewards of that episode, and the same as the agent is told.", "quantifier": "all sequences of actions, resets and queries, all goals and maximal lengths", "why_tests_cant": "Real-valued dynamics with trigonometric forces over histories of any length.", "anchors": ["pybrain/rl/environments/classic/mountaincar.py: MountainCar"]}
{"id": "C101", "title": "Acrobot: two arms in documented ranges", "statement": "Angles and velocities stay in their documented ranges through any calls and nothing is divided by zero; opposite actions give the mirrored simulation and the same rewards; hanging arms stay at rest without torque. The accelerations are those of two arms, so that energy changes only by the work of the torque; the goal is a height of the tip; SingleArmSwinger shows the state of its one arm.", "quantifier": "all sequences of actions, resets and queries, all targets and options", "why_tests_cant": "Real-valued dynamics over histories of any length; conservation of energy.", "anchors": ["pybrain/rl/environments/classic/acrobot.py: AcrobotTask, SimpleAcrobot, VerySimpleAcrobot, SingleArmSwinger"]}
{"id": "C102", "title": "XOR tasks reward the right answers", "statement": "XORTask shows all pairs of bits in turn (or random ones) and rewards answers that are the exclusive or (or conjunction) of the bits; rewards are negated with the given probability; the total is the sum of the rewards. XORChainTask moves on with right answers and back to the start with a wrong one; the total of a run of right answers follows from the cutoff. The tasks can be evaluated, discounted and reset like every episodic task.", "quantifier": "all policies, histories, random draws and options", "why_tests_cant": "Histories of any length; probabilities.", "anchors": ["pybrain/rl/environments/classic/xor.py: XORTask, XORChainTask"]}
{"id": "C103", "title": "Ship steering: ranges and returns", "statement": "Whatever the actions and the noise, heading, rate of turn and speed stay in their ranges and observations between -1 and 1. Actions are cut to thrust and rudder limits. An episode of GoNorthwardTask ends exactly after the maximal number of steps; its return is at most 100, for every maximal number of steps. Without thrust the ship slows down, to the same extent on both sides of north.", "quantifier": "all actions, random numbers, histories and maximal lengths", "why_tests_cant": "Real-valued states with unbounded noise over histories of any length.", "anchors": ["pybrain/rl/environments/shipsteer/shipsteer.py: ShipSteeringEnvironment.step", "pybrain/rl/environments/shipsteer/northwardtask.py: GoNorthwardTask"]}
{"id": "C104", "title": "Tasks on two-player games evaluate complete games", "statement": "The value of a player in CaptureGameTask, GomokuTask or PenteTask is the mean over the games of an evaluation, with colours exchanged after every game if wanted; a game won after fewer moves counts more, a lost one is the negative, a draw is 0. Against players who choose empty points every game ends: a capture game with a winner after 3 to size\u00b2 moves, Go-Moku with a winner after at least 9 moves or a draw on the full board; so the evaluation succeeds, and lies between -winnerReward and winnerReward.", "quantifier": "all board sizes, players, rewards and numbers of games", "why_tests_cant": "Games of any length between arbitrary players.", "anchors": ["pybrain/rl/environments/twoplayergames/tasks/capturetask.py: CaptureGameTask", "pybrain/rl/environments/twoplayergames/tasks/gomokutask.py: GomokuTask", "pybrain/rl/environments/twoplayergames/tasks/pentetask.py: PenteTask", "pybrain/rl/environments/twoplayergames/capturegame.py: CaptureGame.playToTheEnd"]}
{"id": "C105", "title": "The handicap task finds the handicap a player can be given", "statement": "Whatever the outcomes of its games, HandicapCaptureTask plays between 1 and maxGames games, raises or lowers the handicap by one after enough games with more than 80% or less than 20% won, stops when the results are stable and returns a score on a scale from -1 to the highest handicap plus 1, half way for results that fluctuate between two handicaps. The handicap stays between 0 and the full second line; a handicap of h puts exactly h stones on the second line of the empty board.", "quantifier": "all outcomes of games, settings, board sizes, handicaps", "why_tests_cant": "The procedure depends on the whole history of games.", "anchors": ["pybrain/rl/environments/twoplayergames/tasks/handicaptask.py: HandicapCaptureTask", "pybrain/rl/environments/twoplayergames/capturegame.py: CaptureGame.giveHandicap"]}
{"id": "C106", "title": "Relative scores of two players", "statement": "RelativeCaptureTask returns an anti-symmetric score between -1 and 1 of one player against another: a weighted mean of the values of games from the empty board and from first stones that cover the points off the border once up to symmetry, used equally often, at growing temperatures with falling weights. Every evaluation of two players starts under the same conditions. RelativeGomokuTask does the same without first stones; a draw counts as 0.", "quantifier": "all players who choose empty points, board sizes of at least 3 (5), options", "why_tests_cant": "Games of any length between arbitrary players; schedules of any number of games.", "anchors": ["pybrain/rl/environments/twoplayergames/tasks/relativetask.py: RelativeCaptureTask", "pybrain/rl/environments/twoplayergames/tasks/relativegomokutask.py: RelativeGomokuTask"]}
{"id": "C107", "title": "Slices of modules and mesh views", "statement": "A layer viewed as a grid of any dimensions has one slice for every unit of the grid and no other, in row-major order, and every input and output of the layer belongs to exactly one slice. A slice of a module is refused exactly if its bounds do not describe a proper part of the module; slices of slices are possible.", "quantifier": "all layers, grids of any number of dimensions, bounds", "why_tests_cant": "Grids of any dimension and size.", "anchors": ["pybrain/structure/moduleslice.py: ModuleSlice", "pybrain/structure/modulemesh.py: ModuleMesh.viewOnFlatLayer"]}
{"id": "C108", "title": "Swiping networks read the whole grid from all corners", "statement": "For any number of dimensions, all at least 2, a multi-dimensional recurrent network can be built and its activation is the unique solution of the equations of swiping: in each of the 2^d directions, a unit's state is computed from its input and the states of its neighbours behind it, and the output at a unit from the states of all directions there. With symmetric directions it commutes with mirror images, with symmetric dimensions with transpositions; every output depends on the whole input.", "quantifier": "all dimensions, sizes, parameters and inputs", "why_tests_cant": "Grids of any dimension and size, all parameter values.", "anchors": ["pybrain/structure/networks/swiping.py: SwipingNetwork", "pybrain/structure/networks/multidimensional.py: MultiDimensionalRNN", "pybrain/structure/modulemesh.py: ModuleMesh"]}
{"id": "C109", "title": "Bidirectional networks read the sequence from both ends", "statement": "For every sequence length a bidirectional network can be built; the output at each position is computed from the state of a recurrent layer that has read the sequence up to it and from one that has read it from the end. With symmetric weights, reversing the inputs reverses the outputs.", "quantifier": "all sequence lengths, sizes, parameters and inputs", "why_tests_cant": "Sequences of any length, all parameter values.", "anchors": ["pybrain/structure/networks/bidirectional.py: BidirectionalNetwork"]}
{"id": "C110", "title": "Convolutional networks treat all positions alike", "statement": "For windows that fit into the square of inputs, a convolutional network has one output for each position of the window, computed from the cells in the window with the same weights at all positions: equal contents of windows give equal outputs, and cells outside of the window have no influence. Other window sizes are refused.", "quantifier": "all sizes, numbers of channels and feature maps, parameters and inputs", "why_tests_cant": "All sizes and parameter values.", "anchors": ["pybrain/structure/networks/convolutional.py: SimpleConvolutionalNetwork"]}
{"id": "C111", "title": "Convolutional networks for boards have one output per position", "statement": "For all sizes of boards and windows, a convolutional network for boards has one output per board position, that of a convolutional network for the board surrounded by cells with a trainable value for each player, the same all around the board; it depends only on the cells near the position.", "quantifier": "all board and window sizes, numbers of feature maps, parameters and boards", "why_tests_cant": "All sizes and parameter values.", "anchors": ["pybrain/structure/networks/custom/convboard.py: ConvolutionalBoardNetwork", "pybrain/structure/networks/convolutional.py: SimpleConvolutionalNetwork"]}
{"id": "C112", "title": "Multi-dimensional LSTM layers", "statement": "A multi-dimensional LSTM layer computes, for every cell, output gate times squashed state, where the state is what passes the input gate plus what the forget gate of each dimension leaves of the incoming state of that dimension; it hands out outputs and states; its backward pass gives the exact derivatives with respect to all inputs, incoming states and peephole weights; with one dimension, fed with its own states, it has the outputs of the LSTM layer; meatSlice and stateSlice split inputs and outputs completely and without overlap.", "quantifier": "any number of cells and dimensions, all inputs, errors and weights, with and without peepholes", "why_tests_cant": "The backward pass is a hand-written derivative over real inputs; agreement holds for sequences of any length.", "anchors": ["pybrain/structure/modules/mdlstm.py: MDLSTMLayer"]}
{"id": "C113", "title": "States in multi-dimensional LSTM networks", "statement": "In a multi-dimensional LSTM network every cell receives the state of its predecessor in each dimension, in the block of incoming states that belongs to this dimension, from all units of the grid and in every swipe.", "quantifier": "grids of any size, all units, all swipes, any iteration order of the modules", "why_tests_cant": "The error is at borders of grids of any size and shows in numbers only.", "anchors": ["pybrain/structure/networks/multidimensional.py: MultiDimensionalRNN, MultiDimensionalLSTM", "pybrain/structure/networks/swiping.py: SwipingNetwork._buildSwipingStructure"]}
{"id": "C114", "title": "Restricted Boltzmann machines and their inverses", "statement": "Activating a restricted Boltzmann machine gives the probabilities of the hidden units: the sigmoid of the weighted sum of the visible units plus the bias. The inverse of a machine goes from the hidden to the visible units with the same weights.", "quantifier": "all machines and inputs", "why_tests_cant": "Index order in arrays of all shapes; tests with one hidden unit cannot see it.", "anchors": ["pybrain/structure/networks/rbm.py: Rbm, invert"]}
{"id": "C115", "title": "Training of restricted Boltzmann machines", "statement": "Training a restricted Boltzmann machine on batches is contrastive divergence: each weight changes by the learning rate times the difference between the correlation of its two units for the data and for the reconstruction, minus weight decay plus momentum; hidden units are sampled with their probabilities.", "quantifier": "all machines, configurations, data sets, batches and random numbers", "why_tests_cant": "Real-valued updates over any number of iterations, random samples.", "anchors": ["pybrain/unsupervised/trainers/rbm.py: RbmGibbsTrainer, RbmBernoulliTrainer, RbmGaussTrainer"]}
{"id": "C116", "title": "Bernoulli layers", "statement": "A unit of a Bernoulli layer gives 1 with the probability that is its input, and otherwise 0.", "quantifier": "all inputs between 0 and 1", "why_tests_cant": "A probability.", "anchors": ["pybrain/structure/modules/samplelayer.py: BernoulliLayer"]}
{"id": "C117", "title": "Training of deep belief networks", "statement": "A network of several layers can be trained layer by layer as a deep belief network.", "quantifier": "all networks", "why_tests_cant": "There is no test; all names and numbers of layers.", "anchors": ["pybrain/unsupervised/trainers/deepbelief.py: DeepBeliefTrainer", "pybrain/structure/networks/rbm.py: Rbm.fromModules"]}
{"id": "C118", "title": "Evolino networks extrapolate sequences", "statement": "Extrapolating a sequence with an Evolino network gives the outputs of an LSTM network upon which the values of the sequence were forced in place of its own outputs, and which then sees its own outputs, whatever the network was used for before. washout returns the outputs of the LSTM cells, which do not depend on the output weights.", "quantifier": "all networks, sequences, lengths and histories of use", "why_tests_cant": "State is carried in growing buffers with two different offsets; any history and any length.", "anchors": ["pybrain/structure/modules/evolinonetwork.py: EvolinoNetwork.washout, extrapolate, generate, reset"]}
{"id": "C119", "title": "Genomes of Evolino networks", "statement": "The genome of an Evolino network consists of one chromosome for each LSTM cell, with each of the weights that lead to this cell exactly once. Setting a genome and reading it gives it back, and setting the genome of another network copies all its weights; incomplete genomes are refused.", "quantifier": "all numbers of cells and connections, all genomes", "why_tests_cant": "Index arithmetic for all dimensions.", "anchors": ["pybrain/structure/modules/evolinonetwork.py: EvolinoNetwork.getGenome, setGenome", "pybrain/supervised/evolino/networkwrapper.py: NetworkWrapper.getGenome"]}
{"id": "C120", "title": "Evaluation of Evolino networks", "statement": "Evaluating a network on sequences changes only its output weights, and to those with the smallest squared error in one-step predictions of the training parts; its fitness compares extrapolations of the washout parts with the training parts. This works for all data sets and with the default parameters of the trainer.", "quantifier": "all networks, data sets and ratios", "why_tests_cant": "Optimality among all real matrices.", "anchors": ["pybrain/supervised/evolino/filter.py: EvolinoEvaluation", "pybrain/supervised/trainers/evolino.py: EvolinoTrainer"]}
{"id": "C121", "title": "Burst mutations in Evolino training", "statement": "With nBurstMutationEpochs = n a burst mutation takes place exactly in those epochs where n epochs have passed since the last gain of fitness or burst mutation; by default there are none.", "quantifier": "all sequences of fitness values and all n", "why_tests_cant": "Any sequence of fitness values.", "anchors": ["pybrain/supervised/trainers/evolino.py: EvolinoTrainer.train"]}
{"id": "C122", "title": "Multi-objective genetic algorithms report the Pareto front", "statement": "After each generation a multi-objective genetic algorithm reports exactly the evaluated individuals of its population that are not beaten in all objectives, in the direction the user asked for; the constrained version only feasible ones; evaluated individuals do not beat ones reported later; all options and the library's own functions can be used.", "quantifier": "all populations, evaluation functions, numbers of objectives, random numbers and iteration orders of sets", "why_tests_cant": "Every population and every order of sets; fronts over any number of generations.", "anchors": ["pybrain/optimization/populationbased/multiobjective/nsga2.py: MultiObjectiveGA", "pybrain/optimization/populationbased/multiobjective/constnsga2.py: ConstMultiObjectiveGA", "pybrain/optimization/optimizer.py: BlackBoxOptimizer", "pybrain/rl/environments/functions/transformations.py: oppositeFunction"]}
{"id": "C123", "title": "Multi-objective and unbounded benchmark functions", "statement": "The multi-objective benchmark functions have the Pareto optimal sets known from the literature (Schaffer, Fonseca and Fleming, Deb with and without constraints; Binh and Korn; Srinivas and Deb; Osyczka and Kundu), and the violation of constraints is smaller for points closer to being feasible; the unbounded functions have no lower bound.", "quantifier": "all points of the (real) domain, all dimensions", "why_tests_cant": "Optimality among all points of a continuum.", "anchors": ["pybrain/rl/environments/functions/multiobjective.py: SchBenchmark, FonBenchmark, Deb, ConstDeb, ConstBnh, ConstSrn, ConstOsy", "pybrain/rl/environments/functions/unbounded.py: LinearFunction, ParabRFunction, SharpRFunction"]}
{"id": "C124", "title": "Energy of atom clusters", "statement": "The Lennard-Jones function is the sum of the Lennard-Jones potential over all pairs of atoms. It does not change if the cluster is moved, turned or reflected or if the atoms are renumbered. It is at least minus the number of pairs, which is reached exactly up to four atoms. The desired value is the best known value for every number of atoms.", "quantifier": "all numbers of atoms and all configurations", "why_tests_cant": "Minimality among all real configurations.", "anchors": ["pybrain/rl/environments/functions/lennardjones.py: LennardJones"]}
{"id": "C125", "title": "Gaussian and state-dependent layers explore and give log-likelihood gradients", "statement": "Gaussian layers add noise with a positive standard deviation given by their parameters; state-dependent layers add one exploration per state. Backward passes give the gradient of the log-likelihood of the drawn output, with respect to the input and the parameters, and accumulate over samples. Disabled layers are transparent in both directions.", "quantifier": "all sizes, parameters, inputs, noise and states", "why_tests_cant": "Derivatives at every point of a continuum.", "anchors": ["pybrain/structure/modules/gaussianlayer.py: GaussianLayer", "pybrain/structure/modules/statedependentlayer.py: StateDependentLayer"]}
{"id": "C126", "title": "Mixture density networks", "statement": "The layer gives positive mixing coefficients with sum 1 and positive standard deviations; the trainer's error is the negative log-likelihood of the mixture of Gaussians, and the error it sends back is the exact gradient of it.", "quantifier": "all numbers of Gaussians, dimensions of targets and activations", "why_tests_cant": "Derivatives for every activation and every size.", "anchors": ["pybrain/structure/modules/mixturedensity.py: MixtureDensityLayer", "pybrain/supervised/trainers/mixturedensity.py: BackpropTrainerMix, gaussian"]}
{"id": "C127", "title": "Softmax over slices", "statement": "In a PartialSoftmaxLayer the outputs of each slice are positive and sum to 1.", "quantifier": "all slices and inputs", "why_tests_cant": "All real inputs and slice sizes.", "anchors": ["pybrain/structure/modules/softmax.py: PartialSoftmaxLayer"]}
{"id": "C128", "title": "Self-organising maps", "statement": "Activating the map gives the coordinates of the closest neuron. Training moves each neuron towards the input, most strongly the winner and nothing outside the neighbourhood; neurons stay in the range of the data, and repeated training with one input converges to it. With outputFullMap the output is the map of errors.", "quantifier": "all map sizes, neurons, inputs and training sequences", "why_tests_cant": "Any sequence of inputs and any map.", "anchors": ["pybrain/structure/modules/kohonen.py: KohonenMap"]}
{"id": "C129", "title": "Players of board games", "statement": "The players of the capture game have a move in every undecided game; a killing player wins at once when it can, careful players do not lose by their own move when they can avoid it. Games between such players end with a winner after at most one move per point, and no empty point is forbidden to both. Players that decide with a module show it their own and the enemy's stones, and choose legal positions according to its output.", "quantifier": "all board sizes, all reachable games, all random choices and all module outputs", "why_tests_cant": "All reachable positions; group connectivity on boards of any size; probabilities.", "anchors": ["pybrain/rl/environments/twoplayergames/capturegameplayers/killing.py: KillingPlayer", "pybrain/rl/environments/twoplayergames/capturegameplayers/nonsuicide.py: NonSuicidePlayer", "pybrain/rl/environments/twoplayergames/capturegameplayers/randomplayer.py: RandomCapturePlayer", "pybrain/rl/environments/twoplayergames/capturegameplayers/moduledecision.py: ModuleDecidingPlayer", "pybrain/rl/environments/twoplayergames/gomokuplayers/moduledecision.py: ModuleDecidingPlayer", "pybrain/rl/environments/twoplayergames/capturegame.py: CaptureGame.getAcceptable, getKilling, playToTheEnd"]}
{"id": "C130", "title": "Data files in sparse and raw format", "statement": "Loading a file in sparse (LIBSVM) format gives one sample per line, with the labels and feature values of that line and zeros elsewhere; vectors written in that format are read back unchanged. SVMData reads the same files and reports the number of samples, features and classes. Raw targets are turned into the positions of their non-zero entries.", "quantifier": "all files, all orders of features, labels, and repeated loading", "why_tests_cant": "Files of any length and with any set of missing features.", "anchors": ["pybrain/datasets/classification.py: ClassificationDataSet.load_libsvm", "pybrain/tools/svmdata.py: SVMData"]}
{"id": "C131", "title": "Cheap copies behave like independent modules", "statement": "Copies of a module made through CheaplyCopiable can be run, mutated, copied and reset in any order, and each gives the outputs an independent copy of the module would give.", "quantifier": "all modules, all numbers of copies and all interleavings of operations", "why_tests_cant": "All interleavings of operations on any number of copies.", "anchors": ["pybrain/structure/evolvables/cheaplycopiable.py: CheaplyCopiable"]}
{"id": "C132", "title": "Keyword arguments of classes", "statement": "An attribute described to a KWArgsProcessor gets the value supplied by the caller, otherwise its default, otherwise it is left alone; missing mandatory arguments raise a KeyError, contradictory descriptions an AssertionError, and unknown arguments are refused.", "quantifier": "all sets of descriptions and arguments", "why_tests_cant": "All combinations of descriptions and arguments.", "anchors": ["pybrain/tools/kwargsprocessor.py: KWArgsProcessor, KWArgDsc"]}
{"id": "C133", "title": "Memetic searches combine two kinds of mutations", "statement": "A memetic search makes its challengers by topology mutations and improves each by a local search with parameter mutations; an inverse memetic search does the reverse. Afterwards the operators of the evaluables are what they were before, also if the search diverged, and the limit of evaluations is respected.", "quantifier": "all evaluables, all histories of steps, populations and local searches, with and without exceptions", "why_tests_cant": "All histories, including exceptions in any evaluation.", "anchors": ["pybrain/optimization/memetic/memetic.py: MemeticSearch", "pybrain/optimization/memetic/inversememetic.py: InverseMemeticSearch", "pybrain/optimization/memetic/innermemetic.py: InnerMemeticSearch", "pybrain/optimization/memetic/innerinversememetic.py: InnerInverseMemeticSearch"]}
{"id": "C134", "title": "Evaluation on data sets", "statement": "Evaluating a function or module on a data set returns the mean squared error of its predictions; importances weight the components; sequences are read by the module from its reset state and their order does not matter; sums over sequences add up the samples of each sequence.", "quantifier": "all data sets, modules, importances and divisions into sequences", "why_tests_cant": "Any number of samples, sequences and importances.", "anchors": ["pybrain/datasets/supervised.py: SupervisedDataSet.evaluateMSE, SupervisedDataSet.evaluateModuleMSE", "pybrain/datasets/sequential.py: SequentialDataSet.evaluateModuleMSE", "pybrain/datasets/importance.py: ImportanceDataSet", "pybrain/datasets/reinforcement.py: ReinforcementDataSet.getSumOverSequences"]}
{"id": "C135", "title": "Training with early stopping", "statement": "The training tools train a network in blocks of epochs up to the maximal number, stop when the test error has not improved for the given number of checks, return to the best weights, and record and save the errors of all checks.", "quantifier": "all networks, all sequences of errors, all settings", "why_tests_cant": "All sequences of training and test errors.", "anchors": ["pybrain/tools/neuralnets.py: NNregression.runTraining, NNclassifier.runTraining, NNtools.saveTrainingCurve"]}
{"id": "C136", "title": "Fitness expectation-maximization keeps a distribution", "statement": "The search starts at the initial point; every sample of a full window moves the center towards itself in proportion to its utility; the covariance stays positive definite and the center among the samples; the anticipated mean shift moves the center ahead; units do not matter.", "quantifier": "all histories of samples, fitnesses and densities, all settings with one center", "why_tests_cant": "Any number of steps with any samples and fitnesses.", "anchors": ["pybrain/optimization/distributionbased/fem.py: FEM"]}
{"id": "C137", "title": "Gradients of evolution strategies", "statement": "Vanilla and natural evolution strategies follow the exact derivatives of the logarithm of the samples' densities with respect to center and factor; exact NES follows the natural gradient (the derivatives multiplied by the inverse of the Fisher information). Baselines minimize the variance; adding a constant to all fitnesses changes nothing; the size of the batch does not scale the update; the covariance stays positive definite, the densities for importance mixing are those of the distribution, and the search starts at the initial point.", "quantifier": "all dimensions, factors, samples, fitnesses, batch sizes and histories of updates", "why_tests_cant": "Derivatives and Fisher information at every point of a continuum, in every dimension.", "anchors": ["pybrain/optimization/distributionbased/ves.py: VanillaGradientEvolutionStrategies", "pybrain/optimization/distributionbased/nes.py: ExactNES, OriginalNES"]}
{"id": "C138", "title": "Natural evolution strategies of rank one", "statement": "Samples have the covariance given by scale and principal vector; the update is the natural gradient with respect to center, scale and principal vector; the center stays among the samples and the principal vector never degenerates; the user's settings are used; the search works in every dimension and ends when the largest variance is below the cutoff.", "quantifier": "all dimensions, distributions, samples and utilities", "why_tests_cant": "Expectation over a continuum of samples, in every dimension.", "anchors": ["pybrain/optimization/distributionbased/rank1.py: Rank1NES"]}
{"id": "C139", "title": "Reward-weighted regression", "statement": "From a batch of episodes the learner makes a data set with the observations and chosen actions of every episode, weighted with the exponential of the episode's discounted return relative to the best one: better episodes count more. The temperature adapts to the returns and stays positive; units of rewards do not matter; episodes may end at once; the learner runs any number of batches with the learning rate and momentum that were set.", "quantifier": "all episodes, discounts, minimal rewards, temperatures and numbers of batches", "why_tests_cant": "Any number of episodes and steps, real-valued rewards.", "anchors": ["pybrain/rl/learners/directsearch/rwr.py: RWR", "pybrain/supervised/trainers/backprop.py: BackpropTrainer"]}
{"id": "C140", "title": "Helpers for experiments", "statement": "Memoized functions return what the function returns and evaluate it once for equal arguments; the percentage of errors is between 0 and 100 and 0 exactly for equal values; averages of first encounters count the steps until each target is reached; the weighted U-test gives the confidence that the second group is higher, and weights count as repetitions; selections and parts of dictionaries are as documented; generated names are unique.", "quantifier": "all histories of calls, lists, weights, dictionaries and histories of objects", "why_tests_cant": "All histories of calls and objects and lists of any length.", "anchors": ["pybrain/utilities.py: memoize, percentError, avgFoundAfter, weightedUtest, matchingDict, subDict, Named"]}
{"id": "C141", "title": "Helpers for numbers and matrices", "statement": "Sparse orthogonal matrices are orthogonal and have at most four entries per row that are not zero; blocks are combined as they are given; binary arrays are converted to the number with these digits; arrays are scaled linearly to the given interval.", "quantifier": "all dimensions, angles, blocks, arrays and intervals", "why_tests_cant": "All dimensions and real values.", "anchors": ["pybrain/utilities.py: sparse_orth, blockCombine, binArr2int, linscale"]}
{"id": "C142", "title": "Mixtures of Gaussians", "statement": "The mixture policies keep positive weights that sum to one and positive deviations; each Gaussian is drawn with its weight; the chosen mean moves towards good samples and away from bad ones; the table of the normal density is read within its bounds and approximates the density.", "quantifier": "all numbers of Gaussians, step sizes, histories of draws and rewards", "why_tests_cant": "Any history of draws and rewards; probabilities over a continuum.", "anchors": ["pybrain/tools/mixtures/mixtureofgaussian.py: MixtureOfGaussians", "pybrain/tools/mixtures/mogpuremax.py: MixtureOfGaussians"]}
{"id": "C143", "title": "Gradients of GPOMDP", "statement": "The gradient is the policy gradient estimate in which every time step has its own baseline; rewards that depend on the time only do not influence it; the baseline is the one with the smallest variance; episodes of different lengths may be mixed, and the gradient is always a number.", "quantifier": "all sets of episodes, lengths, rewards and derivatives of log likelihoods", "why_tests_cant": "Any number and length of episodes with real values.", "anchors": ["pybrain/rl/learners/directsearch/gpomdp.py: GPOMDP.calculateGradient"]}
{"id": "C144", "title": "Fisher information of Gaussians", "statement": "calcFisherInformation returns the blocks of the Fisher information of a Gaussian with respect to its center and the rows of the upper triangular factor of its covariance, everything outside the blocks is zero, and calcInvFisher returns the inverses of the blocks in the same order.", "quantifier": "all dimensions and positive definite covariances", "why_tests_cant": "Expectation over a continuum of samples, in every dimension.", "anchors": ["pybrain/tools/fisher.py: calcFisherInformation, calcInvFisher"]}
{"id": "C145", "title": "Adaptive resampling", "statement": "Wrapping a noisy function makes at least one evaluation per call and stays within the limit; returned values lie within the range of the values at the point; functions without noise are evaluated once per call, except for one test per batch, and returned exactly; the number of evaluations is increased when repeated evaluation changes ranks too often, and decreased when it changes none.", "quantifier": "all noisy functions, histories of calls and settings", "why_tests_cant": "All histories of calls and all noise.", "anchors": ["pybrain/tools/aptativeresampling.py: AdaptiveResampler"]}
{"id": "C146", "title": "Indian Buffet Processes", "statement": "leftordered returns the columns of a binary matrix in the order of decreasing binary numbers; the result has the shape of the matrix, is the same for all orders of the columns, and stable. generateIBP returns the dishes that were taken at least once, dish by dish with the probabilities of the stick-breaking construction, and the documented expected number of columns.", "quantifier": "all binary matrices, numbers of customers, settings and draws", "why_tests_cant": "All matrices and draws.", "anchors": ["pybrain/tools/ibp.py: leftordered, generateIBP"]}
{"id": "C147", "title": "Transformations of the BBOB benchmark", "statement": "A transformed benchmark function has its single minimum of value zero at the reported optimum, whatever the combination of translation, rotation, conditioning, asymmetry, oscillation, penalization and noise; noise never makes a point look better than the desired value; oscillation and asymmetry keep signs; penalized functions are not penalized twice.", "quantifier": "all dimensions, base functions, combinations of transformations, random matrices and noise", "why_tests_cant": "All points of a continuum, all random matrices and combinations.", "anchors": ["pybrain/rl/environments/functions/transformations.py: BBOBTransformationFunction", "pybrain/rl/environments/functions/bbob2010.py"]}
{"id": "C148", "title": "Benchmark functions with random parameters", "statement": "The step ellipsoid, attractive sector, Schwefel, Gallagher and Lunacek functions of the BBOB collection are nowhere negative and have their minimum of value zero at the optimum they report.", "quantifier": "all dimensions, points and random parameters", "why_tests_cant": "All points of a continuum and all random parameters.", "anchors": ["pybrain/rl/environments/functions/unimodal.py: StepElliFunction, AttractiveSectorFunction", "pybrain/rl/environments/functions/multimodal.py: Schwefel20Function, GallagherGauss101MeFunction, LunacekBiRastriginFunction"]}
{"id": "C149", "title": "The simple environment and its minimization task", "statement": "The state of the simple environment changes by the performed actions as documented, an episode of the minimization task has a fixed number of steps, and its rewards reward staying near the origin; reading the state, resetting and asking whether the episode is over have no other effects, and the total reward of an episode is the sum of its rewards.", "quantifier": "all dimensions, sequences of actions, interleavings of calls and noise", "why_tests_cant": "All sequences of actions and orders of calls.", "anchors": ["pybrain/rl/environments/simple/environment.py: SimpleEnvironment", "pybrain/rl/environments/simple/tasks.py: MinimizeTask", "pybrain/rl/environments/episodic.py: EpisodicTask"]}
{"id": "C150", "title": "Experiments with a queue of episodes", "statement": "A queued experiment keeps a window of the most recent episodes; the learner sees exactly this window in every learning cycle, and each episode is considered as often as the queue is long before it is discarded.", "quantifier": "all tasks, agents, learners, histories, queue lengths and numbers of cycles", "why_tests_cant": "All histories and tasks.", "anchors": ["pybrain/rl/experiments/queued.py: QueuedExperiment"]}
{"id": "C151", "title": "Levin search", "statement": "A Levin search over programs enumerated by increasing complexity finds the first program that solves the problem, executing programs phase by phase, each with the time its complexity leaves; programs that do not terminate, and complexities without programs, do not prevent this.", "quantifier": "all enumerations of programs and problems", "why_tests_cant": "All enumerations, including programs that do not terminate.", "anchors": ["pybrain/rl/learners/meta/levinsearch.py: LevinSeach"]}
{"id": "C152", "title": "Swiping networks with borders", "statement": "A swiping network with borders computes the unique solution of the equations of its swipes, with the weights of the border where a swipe enters the grid; it treats mirror images alike and, on boards of the capture game, rows and columns; weights extrapolated for larger boards are weighted averages of existing ones.", "quantifier": "all numbers and sizes of dimensions, weights, inputs and options", "why_tests_cant": "All sizes, weights and inputs.", "anchors": ["pybrain/structure/networks/borderswiping.py: BorderSwipingNetwork", "pybrain/structure/networks/custom/capturegame.py: CaptureGameNetwork"]}
{"id": "C153", "title": "Search for the parameters of support vector machines", "statement": "The grid search evaluates every pair of exponents of the grid exactly once and returns the parameters with the best accuracy. The design-of-experiments search ends, evaluates no point twice and none outside the user's window, halves its window around the best point of each level, and returns the best of all evaluated points.", "quantifier": "all grids, windows, depths and outcomes of the cross-validation", "why_tests_cant": "All outcomes of cross-validation and real windows.", "anchors": ["pybrain/supervised/trainers/svmtrainer.py: GridSearch, GridSearchDOE"]}
{"id": "C154", "title": "Agents in RL-Glue sessions", "statement": "An adapted agent follows pybrain's protocol in every RL-Glue session; its learner is called after every cycle of episodes with exactly the episodes of the cycle; a benchmarking agent records the average reward and length of every episode; a benchmark that was killed is completed by running it again, without losing or repeating tests.", "quantifier": "all sessions, cycle lengths, agent names, files and points at which a benchmark is killed", "why_tests_cant": "All sessions and crash points.", "anchors": ["pybrain/tools/rlgluebridge.py: RlglueAgentAdapter, BenchmarkingAgent, RlCompBenchmark.run"]}
{"id": "C155", "title": "The simplerace environment", "statement": "Actions are encoded as the nine commands of the race server; commands are sent only between the server's resets and after one waiting step; the cars' scores count the waypoints they reach.", "quantifier": "all histories of actions and answers of the server", "why_tests_cant": "All histories of answers.", "anchors": ["pybrain/rl/environments/simplerace/simpleracetcp.py: SimpleraceEnvironment", "pybrain/rl/environments/simplerace/simplecontroller.py: SimpleController"]}
{"id": "C156", "title": "Lists of files and dictionaries in files", "statement": "getAllFilesIn finds the files with tag and extension; selectSome selects the strings with at least one required substring; addToDictFile accumulates the data of all calls per key, in spite of crashes and of other processes that use the file.", "quantifier": "all directories, strings, pickle formats, sequences of calls, crash points and schedules of processes", "why_tests_cant": "All crash points and interleavings.", "anchors": ["pybrain/tools/filehandling.py: getAllFilesIn, selectSome, pickleDumpDict, pickleReadDict, addToDictFile"]}
{"id": "C157", "title": "Handling of XML documents", "statement": "Attributes are read as they were written; nodes are found by tag and number or by tag and name, whatever texts and other nodes are between them; lists and matrices of numbers that were written are read back with the given precision.", "quantifier": "all documents, attributes, names and lists of numbers", "why_tests_cant": "All documents and numbers.", "anchors": ["pybrain/tools/customxml/handling.py: XMLHandling", "pybrain/utilities.py: fListToString"]}
{"id": "C158", "title": "Multi-dimensional recurrent layers and networks", "statement": "The parameters of a multi-dimensional recurrent layer are divided among its connections without overlap or rest; a multi-directional network has one permutation of the blocks for each combination of directions, reversing exactly the axes that are swiped backwards, and the outputs of each direction are put back to the places of the blocks they belong to.", "quantifier": "all numbers and sizes of dimensions, layer sizes, parameters and inputs", "why_tests_cant": "All dimensions and sizes.", "anchors": ["pybrain/structure/modules/mdrnnlayer.py: MDRNNLayer", "pybrain/structure/networks/mdrnn.py: _MultiDirectionalMdrnn._permsForSwiping"]}
{"id": "C159", "title": "Genomes, individuals and variates of Evolino", "statement": "A filter that mutates or randomizes changes every number of every genome of a population once, in place, keeps the nesting of the genomes and touches nothing else; copies of sub-individuals are independent and have new identifiers in every history; the samples of the variates have the documented distributions.", "quantifier": "all nested genomes, populations, histories, random numbers and parameters", "why_tests_cant": "All nestings, histories and the whole distribution of the samples.", "anchors": ["pybrain/supervised/evolino/gfilter.py: SimpleGenomeManipulation, SimpleMutation, Randomization", "pybrain/supervised/evolino/individual.py: EvolinoIndividual, EvolinoSubIndividual", "pybrain/supervised/evolino/gindividual.py: Individual", "pybrain/supervised/evolino/variate.py: UniformVariate, CauchyVariate, GaussianVariate"]}
{"id": "C160", "title": "Lists over UDP", "statement": "A UDP server sends its data exactly once to each client that reported since the last timeout; a client receives nested lists and lists of arrays in their original form; clients that quit are dropped after the timeout.", "quantifier": "all histories of datagrams and timeouts, numbers of clients and data", "why_tests_cant": "All histories and data.", "anchors": ["pybrain/tools/networking/udpconnection.py: UDPServer, UDPClient"]}
{"id": "C161", "title": "Learning after every step and exploration per episode", "statement": "An experiment that learns continuously gives the learner all interactions so far after every step, in order and without resets; the explorer that perturbs a copy of the module acts by one and the same perturbed copy for a full episode, leaves the module unchanged, and is not used when learning is switched off.", "quantifier": "all tasks, agents, learners, numbers of steps, histories of the explorer and random numbers", "why_tests_cant": "All histories and tasks.", "anchors": ["pybrain/rl/experiments/continuous.py: ContinuousExperiment", "pybrain/rl/explorers/discrete/discretesde.py: DiscreteStateDependentExplorer", "pybrain/rl/explorers/discrete/discrete.py: DiscreteExplorer", "pybrain/rl/agents/learning.py: LearningAgent"]}
{"id": "C162", "title": "Co-evolution keeps its books and budgets", "statement": "Every evaluation is recorded for the pair that played; tournaments let every player meet the requested number of distinct opponents once in each order; comparing two players gives their average score and is antisymmetric; every generation selects the best, keeps the size of the population and adds its best player to the hall of fame; averaging with parents and elitism work as set; learning respects its budgets, ends, and returns the best player of the last generation.", "quantifier": "all evaluators (also random ones), populations, settings, histories and random choices", "why_tests_cant": "All histories of games and generations.", "anchors": ["pybrain/optimization/populationbased/coevolution/coevolution.py: Coevolution"]}
{"id": "C163", "title": "Fitness sharing and shared sampling in co-evolution", "statement": "Shared sampling chooses the requested number of distinct opponents, each of which beats most of the players not beaten by those chosen before; the global score is a player's average score; competitive fitness sharing gives each beaten parasite the same value, shared equally among the hosts that beat it, and counts all games.", "quantifier": "all histories of games, populations and random orders", "why_tests_cant": "All histories of games.", "anchors": ["pybrain/optimization/populationbased/coevolution/coevolution.py: Coevolution._sharedSampling, Coevolution._globalScore", "pybrain/optimization/populationbased/coevolution/competitivecoevolution.py: CompetitiveCoevolution._competitiveSharedFitness"]}
{"id": "C164", "title": "XML structures are built and written as asked", "statement": "Inserting tags and moving up or to the top builds exactly the document that the calls describe, with the current tag where the calls lead; what is written for it is well-formed XML that reads back as the same document; tags can be found by name and scaled.", "quantifier": "all sequences of calls, names, attributes and nestings", "why_tests_cant": "All sequences of calls and all documents.", "anchors": ["pybrain/rl/environments/ode/tools/xmltools.py: XMLstruct"]}
{"id": "C165", "title": "Files of bodies and joints for the physics engine", "statement": "A file contains exactly the bodies, joints and floors that were inserted, in order, with their positions, masses and shapes; bodies are in the pass sets they were given; mass and density are converted into each other by the volume of the shape; pressure sensors are damped springs along a unit axis; files can be merged and written.", "quantifier": "all sequences of insertions with all arguments", "why_tests_cant": "All sequences of insertions.", "anchors": ["pybrain/rl/environments/ode/tools/xodetools.py: XODEfile"]}
{"id": "C166", "title": "The physics of the flexible cube", "statement": "The springs that actions control are the twelve edges of the cube; in every history of actions and resets the edges' springs have the lengths asked for, clipped to the allowed range, the diagonal springs keep theirs, and no point is below the floor; forces between points cancel, points that hit the floor bounce, and the motion does not depend on the place; a reset brings back the state at the start.", "quantifier": "all histories of resets and actions, all actions and places", "why_tests_cant": "All histories of a numerical simulation.", "anchors": ["pybrain/rl/environments/flexcube/environment.py: FlexCubeEnvironment"]}
{"id": "C167", "title": "Sensors and tasks of the flexible cube", "statement": "The sensors report edges, contacts, heights and times in their ranges; agents that act between -1 and 1 change the lengths asked for smoothly within the allowed range; the reward is the growth, the distance walked or the height jumped, minus a pain that is zero exactly if no edge is too long; episodes have the length set; tasks know the sizes of their observations.", "quantifier": "all states, actions, agents and episodes", "why_tests_cant": "All states and episodes.", "anchors": ["pybrain/rl/environments/flexcube/sensors.py: Sensors", "pybrain/rl/environments/flexcube/tasks.py: NoRewardTask, GrowTask, WalkTask, RollingUpTask, WalkDirectionTask, TargetTask, JumpTask"]}
{"id": "C168", "title": "Natural gradients and IRpropPlus", "statement": "A natural gradient is returned whenever the given number of gradients was collected, and for them only: the vector that their covariance maps to their sum; in other coordinates of the parameters the steps are the same; IRpropPlus moves parameters against their gradients.", "quantifier": "all sample sizes, numbers of parameters, histories of gradients and changes of coordinates", "why_tests_cant": "All histories and coordinates.", "anchors": ["pybrain/auxiliary/gradientdescent.py: NaturalGradient, IRpropPlus"]}
{"id": "C169", "title": "Observations in the ODE environment", "statement": "After every history of loading, adding and excluding sensors, actions and resets, the observation is the readings of the sensors that are not excluded, in the order in which they were added; sensors can be asked for by name; an action advances the simulation by the set number of steps; distance sensors report the distance.", "quantifier": "all files, physics, histories of operations and sensors", "why_tests_cant": "All histories and models.", "anchors": ["pybrain/rl/environments/ode/environment.py: ODEEnvironment", "pybrain/rl/environments/ode/sensors.py: Sensor, JointSensor, JointVelocitySensor, SpecificJointSensor, DistToPointSensor, SpecificBodyPositionSensor"]}
{"id": "C170", "title": "Actions in the ODE environment", "statement": "The number of actions is the number of values that the actuators take; each actuator gets its part of the action and sets the torque of every axis of its joints from its own value.", "quantifier": "all models, lists of actuators, joints and actions", "why_tests_cant": "All models and actions.", "anchors": ["pybrain/rl/environments/ode/actuators.py: JointActuator, SpecificJointActuator, CopyJointActuator", "pybrain/rl/environments/ode/environment.py: ODEEnvironment.performAction, ODEEnvironment.indim"]}
{"id": "C171", "title": "Parameter sections of XODE files and pairs that pass each other", "statement": "The section of a name in a file is the lines between its tag and the next tag; sections that are written are read back unchanged; objects of one pass set never get contacts, all others get all of theirs, in either order.", "quantifier": "all files, sections, names and pass sets", "why_tests_cant": "All files and names.", "anchors": ["pybrain/rl/environments/ode/tools/configgrab.py: ConfigGrabber", "pybrain/rl/environments/ode/tools/xodetools.py: XODEfile.writeCustomParameters", "pybrain/rl/environments/ode/environment.py: ODEEnvironment.loadConfig, ODEEnvironment._near_callback"]}
{"id": "C172", "title": "Tasks of the robot Johnnie", "statement": "Episodes have the length set and record their total reward; actions between -1 and 1 demand angles between the limits of the joints, and the torques stay below their limits and push towards those angles; gravity is perturbed for the set number of steps at the set times; standing is rewarded by the height of the head.", "quantifier": "all lengths of episodes, rewards, actions, states of joints, numbers of episodes and steps", "why_tests_cant": "All histories and real-valued actions.", "anchors": ["pybrain/rl/environments/ode/tasks/johnnie.py: JohnnieTask, StandingTask, RStandingTask, RobStandingTask, RobustStandingTask, JumpingTask, StandingUpTask"]}
{"id": "C173", "title": "Tasks of the robot arm", "statement": "The object stands at a different location in each part of an episode, one large reward is given in each part; contacts with the table and the glass are counted in either order of the objects; touching the table is punished; the hand closes near the object.", "quantifier": "all episodes, steps, locations, names of objects and actions", "why_tests_cant": "All histories of episodes.", "anchors": ["pybrain/rl/environments/ode/tasks/ccrl.py: CCRLTask, CCRLGlasTask, CCRLGlasVarTask", "pybrain/rl/environments/ode/instances/ccrl.py: CCRLEnvironment"]}
{"id": "C174", "title": "Recurrent networks with LSTM layers", "statement": "After a reset, activating a recurrent network that contains LSTM layers computes the unrolled graph in which every LSTM cell follows the LSTM recurrence; activating and back-activating a whole sequence adds the exact gradient to the derivatives and returns the exact input errors; training such a network (online, batch, Rprop) makes gradient descent steps on the weighted squared error, and testing changes neither parameters nor derivatives.", "quantifier": "all networks of plain layers, LSTM layers (with and without peepholes) and connections, all parameters, buffer contents, sequences and datasets", "why_tests_cant": "Continuous parameters, arbitrary graphs and sequence lengths; the error of a cell state flows backwards through time inside the layer while other errors flow through the network.", "anchors": ["pybrain/structure/networks/recurrent.py: RecurrentNetwork.activate, RecurrentNetwork.backActivate", "pybrain/structure/modules/lstm.py: LSTMLayer", "pybrain/supervised/trainers/backprop.py: BackpropTrainer", "pybrain/supervised/trainers/rprop.py: RPropMinusTrainer"]}
{"id": "C175", "title": "Reading the MNIST database", "statement": "From files in the format of the database exactly the images and labels are read, in order; the datasets pair each image with the vector that has its one at the label; of files that were cut off only complete images are read, followed by an exception.", "quantifier": "all files, numbers and sizes of images, labels and places where a file is cut", "why_tests_cant": "All files.", "anchors": ["pybrain/tools/datasets/mnist.py: labels, images, flaggedArrayByIndex, makeMnistDataSets"]}
{"id": "C176", "title": "Co-evolution of two populations", "statement": "Seeds are split between the two populations; every generation plays each host against distinct parasites and members of the hall of fame, in both orders, and nobody else; the best host by shared fitness enters the hall of fame; then the roles are swapped and only the former hosts have been replaced by their offspring; budgets are kept.", "quantifier": "all seeds, settings, evaluators, random choices and numbers of generations", "why_tests_cant": "All histories and random choices.", "anchors": ["pybrain/optimization/populationbased/coevolution/competitivecoevolution.py: CompetitiveCoevolution"]}
{"id": "C177", "title": "Co-evolution of many populations", "statement": "Seeds are dealt out to the populations in turn; in every generation the main population plays against players of each other population, only it is replaced by its offspring, its best member by average score enters the hall of fame, and the populations take turns; budgets are kept.", "quantifier": "all seeds, settings, evaluators, random choices, numbers of populations and generations", "why_tests_cant": "All histories and random choices.", "anchors": ["pybrain/optimization/populationbased/coevolution/multipopulationcoevolution.py: MultiPopulationCoevolution"]}
{"id": "C178", "title": "The Nelder-Mead optimizer", "statement": "Learning makes one call of the simplex search, from the best point so far and within the remaining evaluations; all evaluations are recorded and the best of them is reported in the direction asked for; it ends when the search ends, when the search reports and the goal is reached or the evaluations are used up, or at the first value that is not a number; afterwards learning again does nothing.", "quantifier": "all search procedures, objectives (also noisy ones), directions, limits, goals and histories of evaluations", "why_tests_cant": "All search procedures and objectives.", "anchors": ["pybrain/optimization/neldermead.py: NelderMead", "pybrain/optimization/optimizer.py: BlackBoxOptimizer.learn"]}
{"id": "C179", "title": "The compiled cart-pole task", "statement": "The compiled simulation integrates the equations of motion of a cart with one or two poles by classical Runge-Kutta steps; forces are cut at ten Newton; mirrored actions in mirrored states have mirrored effects; the agent sees all of the state or its positions only, in vectors of the announced length; each action after which the poles stand is rewarded by one, and an episode ends when they fall or after the maximal number of actions.", "quantifier": "all states, actions, numbers of poles, settings, contents of uninitialised memory and sequences of actions", "why_tests_cant": "Continuous states and actions; all histories.", "anchors": ["pybrain/rl/environments/cartpole/fast_version/cartpole.cpp: step, rk4, doAction, getObservation, trialFinished, getReward", "pybrain/rl/environments/cartpole/fast_version/cartpolewrap.pyx: getObs", "pybrain/rl/environments/cartpole/fast_version/cartpoleenv.py: FastCartPoleTask"]}
{"id": "C180", "title": "The options of fitness expectation-maximization", "statement": "For every choice of elitism, elitism of samples, one-fifth rule, weighted re-estimation of the center and adaptive shaping, the covariance stays positive definite, the center stays in the convex hull of the points seen, and the best of all evaluations is kept; with elitism the center stays a best point; every window repeats the best sample; the one-fifth rule compares fixed percentiles of two windows; the center is the weighted mean of the last window; optimizers do not influence each other.", "quantifier": "all options, samples, evaluations (also noisy ones), numbers of steps and pairs of optimizers", "why_tests_cant": "All histories of random samples and combinations of options.", "anchors": ["pybrain/optimization/distributionbased/fem.py: FEM", "pybrain/tools/rankingfunctions.py: TopLinearRanking"]}
{"id": "C181", "title": "The options of vanilla gradient evolution strategies", "statement": "Momentum sums all gradients with powers of the momentum; with elitism the center is the best evaluated sample after every batch; vanilla scaling multiplies the derivatives with the deviations; online learning leaves the distribution alone during the first batch and then follows each sample's derivative weighted by its utility minus the optimal baseline of the last samples.", "quantifier": "all settings, distributions, samples, evaluations and numbers of steps", "why_tests_cant": "Continuous samples and unbounded histories.", "anchors": ["pybrain/optimization/distributionbased/ves.py: VanillaGradientEvolutionStrategies"]}
{"id": "C182", "title": "The automatic noise of Gaussian processes", "statement": "With autonoise, samples whose neighbours (within the average distance of neighbouring inputs) have different targets get additional noise, discounted with the distance; predictions are the posterior means for these noise variances; the covariance is symmetric and positive semidefinite, and never smaller than without the option.", "quantifier": "all histories of samples and settings, inputs and numbers of samples", "why_tests_cant": "Continuous samples and unbounded histories; a test sees a few points of one curve.", "anchors": ["pybrain/auxiliary/gaussprocess.py: GaussianProcess._calculate, autonoise"]}
{"id": "C183", "title": "Conversion into decomposable networks", "statement": "Converting a network gives a network with the same modules, inputs, outputs, connections (also shared and recurrent ones), dimensions and components with parameters, ready for use, with the parameters in the same order; networks with other modules than layers of neurons are refused; the original network remains usable.", "quantifier": "all networks built by any sequence of calls, iteration orders of sets, names and parameter values", "why_tests_cant": "Unbounded graphs and construction histories; iteration orders of sets.", "anchors": ["pybrain/structure/networks/neurondecomposable.py: NeuronDecomposableNetwork.convertNormalNetwork, addModule", "pybrain/structure/networks/network.py: Network._containerIterator, sortModules"]}
{"id": "C184", "title": "Training and using support vector machines", "statement": "Training hands the data set with class indices and the chosen parameters to the library and installs the resulting model in the unit; loading installs a stored one; options of the search are exponents of two; the score of a candidate is the fraction of predictions that agree with the data set; activation and evaluation on a data set give class, decision values or probabilities as asked for.", "quantifier": "all data sets, parameters, sequences of training, loading, setting parameters and changing the data, all results of the library", "why_tests_cant": "Histories of calls, and all data sets and library results.", "anchors": ["pybrain/supervised/trainers/svmtrainer.py: SVMTrainer, GridSearch, GridSearchDOE", "pybrain/structure/modules/svmunit.py: SVMUnit.forwardPass, activateOnDataset"]}
{"id": "C185", "title": "Recording and showing experiments", "statement": "Results recorded in any number of runs are shown as the average over the runs with the standard deviation as error bar, at the number of evaluations; recording objects do not influence each other, and more runs can be added after showing.", "quantifier": "all numbers of runs and objects and all results", "why_tests_cant": "Sharing between objects shows up only for certain histories of calls.", "anchors": ["pybrain/tools/example_tools.py: ExTools.printResults, addExps, showExps"]}
{"id": "C186", "title": "Putting agents, learners, modules and explorers together", "statement": "Whatever is assigned to a learner and in whatever order, it uses the module and the explorer assigned last, and these two know each other; explorers may be assigned before the agent is made, or taken away; stored log-likelihoods and samples stay in step; the agent's learner learns from the agent's history.", "quantifier": "all sequences of making agents, assigning modules, explorers and data sets, interacting and resetting; all modules", "why_tests_cant": "Unbounded histories of assignments.", "anchors": ["pybrain/rl/learners/valuebased/valuebased.py: ValueBasedLearner.module, explorer", "pybrain/rl/learners/directsearch/policygradient.py: PolicyGradientLearner.module, explorer, explore, reset", "pybrain/rl/learners/learner.py: DataSetLearner.learnOnDataset", "pybrain/rl/agents/learning.py: LearningAgent"]}
{"id": "C187", "title": "Sequence classification data in 1-of-k representation", "statement": "Converting the targets of a data set of sequences into 1-of-k representation keeps the sequences and marks the class of every sample; the classes of the sequences can still be read; converting back restores the targets; removing sequences commutes with the conversion; samples can be added and stratified splits be made as before.", "quantifier": "all histories of calls, targets, bounds, fractions and permutations", "why_tests_cant": "Unbounded histories of calls.", "anchors": ["pybrain/datasets/classification.py: ClassificationDataSet._convertToOneOfMany, _convertToClassNb, assignClasses; SequenceClassificationDataSet.removeSequence, getSequenceClass, stratifiedSplit"]}
{"id": "C188", "title": "The maze of 89 states has 89 states and every start leads to the goal", "statement": "EightyNineStateMaze: position and direction make 89 different states, the goal counted once; a new task starts in any free cell but the goal, facing any direction; from every state one rule choosing actions from position and direction reaches the goal in the least possible number of actions, at most 15; the cumulative reward grows by one on arrivals at the goal and by nothing else, and the episode is over exactly at the goal.", "quantifier": "all states, all sequences of actions with any random replacements", "why_tests_cant": "The least number of actions is a minimum over all sequences of actions, of every length.", "anchors": ["pybrain/rl/environments/mazes/tasks/maze89state.py:EightyNineStateMaze", "pybrain/rl/environments/mazes/polarmaze.py:PolarMaze", "pybrain/rl/environments/mazes/tasks/maze.py:MazeTask"]}
{"id": "C189", "title": "Copies and files of data sets", "statement": "copy() of a data set gives a data set with the same class, fields, rows, links, dimensions and classes that is independent of the original (whatever is done to one leaves the other as it is) and behaves like it: a program run on the copy gives the same results as on the original; a data set saved to a file, compact or not, is read back the same, and saving changes nothing in it.", "quantifier": "all data sets reachable by any sequence of operations, all classes of data sets, all programs run on the copy or on the original", "why_tests_cant": "Fields may be views of the same memory; independence and equal behaviour concern all programs run afterwards.", "anchors": ["pybrain/datasets/dataset.py:DataSet.copy", "pybrain/datasets/dataset.py:DataSet.__reduce__", "pybrain/datasets/dataset.py:DataSet.save_pickle", "pybrain/datasets/supervised.py:SupervisedDataSet.__reduce__", "pybrain/datasets/classification.py:ClassificationDataSet.__reduce__", "pybrain/datasets/reinforcement.py:ReinforcementDataSet.__reduce__", "pybrain/datasets/unsupervised.py:UnsupervisedDataSet.__reduce__"]}
{"id": "C190", "title": "Plots with several lines show the points given", "statement": "Whatever sequence of calls adds points, replaces series, changes the offset and styles or updates the figure, every line of a MultilinePlotter has exactly the points given for its number, in order; after an update all lines show their points (also when the plotter takes the figure to be current and does nothing), with the colour of their number; with automatic scaling the update ends, never makes an axis smaller, keeps sufficient limits, and leaves all points inside; a style is given to the line asked for and to lines made later; the file of saveData has all points.", "quantifier": "all sequences of calls of addData (single points and lists), setData, setOffset, setLineStyle and update, all numbers of lines, offsets, points, limits of axes and factors of scaling", "why_tests_cant": "Which list a point goes to depends on the history of offsets and of lists handed over; that the loops which enlarge the axes end is a statement about all limits and factors.", "anchors": ["pybrain/tools/plotting/multiline.py:MultilinePlotter"]}
{"id": "C191", "title": "Plots of the progression of fitness show the averages", "statement": "The curve plotted for the runs of a name has, averaged over evaluations, at each fitness between the worst one and the target the average number of evaluations the runs used need to reach it (runs that do not reach it count with the length of the longest run), so that the curve begins at no evaluations, ends at the target and never goes back; averaged over fitnesses, it has the average fitness after each number of evaluations, where fitnesses beyond the target count as the target; only successful runs are used if asked for; each name has its own curve with its own number of evaluations per fitness, and the curves are drawn in the order of names.", "quantifier": "all dictionaries of runs, all runs, targets, resolutions and options", "why_tests_cant": "The claims are about all lists of runs of all lengths; averages over runs of different lengths and options for each name combine in ways tests only sample.", "anchors": ["pybrain/tools/plotting/fitnessprogression.py:plotFitnessProgession", "pybrain/utilities.py:avgFoundAfter"]}
{"id": "C192", "title": "Plots of landscapes, coevolution and classifiers show the values computed", "statement": "A CIAO plot has, for each pair of generations, the evaluation of the best individuals of the two populations, brought to the interval from 0 to 1; a FitnessPlotter has, after any sequence of samples and ellipses added, the values of the function at all points of an evenly spaced grid that contains the range given and all samples; a covariance ellipse is drawn as points on the ellipse of the matrix and is closed; a punch card shows for each sequence the class expected, the averages of the outputs and the class with the largest one, and the percentage of correct ones.", "quantifier": "all evaluators, histories of individuals, functions, sequences of calls, covariance matrices with their decompositions, modules and sequences", "why_tests_cant": "The claims are about all functions and histories; which entries of the matrices come from which evaluations, and whether samples stay inside, is only visible with adequate inputs.", "anchors": ["pybrain/tools/plotting/ciaoplot.py:CiaoPlot", "pybrain/tools/plotting/fitnesslandscapes.py:plotCovEllipse", "pybrain/tools/plotting/fitnesslandscapes.py:FitnessPlotter", "pybrain/tools/plotting/classification.py:ClassificationDataSetPlot.punchcard_module_classification_performance"]}
{"id": "C193", "title": "Capture games against an external program", "statement": "A ClientCapturePlayer tells the program who is to move and the whole position, so that positions of different boards are never confused; every action it returns is a legal move of its colour, whatever the program answers and however the network cuts the answers into pieces; the move answered is the action; the player is made exactly if the program says OK; and it always ends with an action or an exception.", "quantifier": "all positions, board sizes and colours, all answers and all ways in which the network delivers them", "why_tests_cant": "TCP delivers bytes in arbitrary pieces; tests over a local connection see only one way to cut them.", "anchors": ["pybrain/rl/environments/twoplayergames/capturegameplayers/clientwrapper.py:ClientCapturePlayer", "pybrain/rl/environments/twoplayergames/capturegameplayers/captureplayer.py:CapturePlayer"]}
{"id": "C194", "title": "The functions of the BBOB collection have their minimum where they say", "statement": "Each of the 24 functions and 30 noisy functions of the BBOB 2010 collection can be made in two or more dimensions, takes no negative values, and has its minimum, of value zero (as the module notes: f_opt is fixed to 0 for all), at the xopt it reports, for all random translations, rotations, signs, peaks and noise.", "quantifier": "all 54 functions, all dimensions from two, all random draws of the constructors and of the evaluations, and all points", "why_tests_cant": "The functions are random and have infinitely many points; a test evaluates a few.", "anchors": ["pybrain/rl/environments/functions/bbob2010.py: bbob_f1..bbob_f24, bbob_f101..bbob_f130, bbob_collection, bbob_noise_collection", "pybrain/rl/environments/functions/transformations.py: BBOBTransformationFunction"]}
{"id": "C195", "title": "Bodies, masses and geoms of XODE files", "statement": "Reading a body or geom element puts every body and every shape in it, at whatever depth, at the place given by the transformations around it; the mass of a body is that of its mass element: density times volume of its shape plus the nested masses, or what adjust says; geoms without an object are refused.", "quantifier": "all trees of elements, transformations, shapes, densities and masses", "why_tests_cant": "Unbounded nesting of elements; transformations are looked up in the enclosing elements while the events of the parser come in.", "anchors": ["pybrain/rl/environments/ode/xode_changes/body.py:Body", "pybrain/rl/environments/ode/xode_changes/body.py:Mass", "pybrain/rl/environments/ode/xode_changes/body.py:MassShape", "pybrain/rl/environments/ode/xode_changes/geom.py:Geom"]}
{"id": "C196", "title": "Plots of all variations of options", "statement": "plotVariations draws, for each item of the data, every combination of the values of the options exactly once, in the figure that has the values of the options fixed per figure, and nothing else; what is drawn is what the generator returned for this item and combination, moved by a different multiple of the differentiator for each curve of a figure; curves are labelled with the options that vary within the figure, and the labels tell the curves apart; the title of a figure names the other options with their values.", "quantifier": "all data, titles, options with lists of values, choices of the options that vary per plot, generators and differentiators", "why_tests_cant": "All dictionaries of options of any size; a test sees a few combinations.", "anchors": ["pybrain/tools/plotting/quickvariations.py:plotVariations", "pybrain/utilities.py:subDict, dictCombinations"]}
{"id": "C197", "title": "The viewer of ODE worlds", "statement": "The eye stays at the view distance from the point looked at and not below it, whatever is done with mouse and keyboard, and the view distance stays in its range; with the mouse view switched off the mouse changes nothing; every object is drawn as its shape, rotated and moved to its position, planes as part of the plane; one of every frameT frames is saved, and no screenshot replaces another.", "quantifier": "all sequences of mouse and keyboard events, sizes of the window, objects with positions and rotations, planes and numbers of frames", "why_tests_cant": "Unbounded sequences of events, and real coordinates; a test looks at a few pictures.", "anchors": ["pybrain/rl/environments/ode/viewer.py:ODEViewer.prepare_GL, draw_item, _motionfunc, _passivemotionfunc, _keyfunc, _screenshot", "pybrain/rl/environments/ode/tools/mathhelpers.py"]}
{"id": "C198", "title": "Drawing of the flexible cube", "statement": "The six quadrilaterals drawn for the cube are its six faces, each once, with the corners in their order around the face; the normals are unit vectors that point from the center of gravity to the middle of the face, and are perpendicular to the faces of a box; the mirror image is the cube with the sign of one coordinate changed, with normals mirrored as well; the shadow is where the light through the corners meets the floor, facing up.", "quantifier": "all positions of the eight corners and of the center of gravity", "why_tests_cant": "Real coordinates; a picture looks right for one cube.", "anchors": ["pybrain/rl/environments/flexcube/objects3d.py:Objects3D.drawCreature, drawMirCreat, drawShadow, normale, normVect"]}
{"id": "C199", "title": "Validation of modules on sequences", "statement": "The reported sequence ends are the last samples of the sequences, and exactly these get importance 1; a module is reset before each sequence, so its outputs on a sequence do not depend on what came before; the class of a sequence is the first largest entry of the summed outputs, and the hit rate is the fraction of sequences with the class of their last target; the mean squared error weighs each entry with its importance; the hit rate of a module is the fraction of samples whose output is the target.", "quantifier": "all modules (states, resets, activations), all data sets of sequences of any lengths, also empty sequences, targets and importances", "why_tests_cant": "All numbers and lengths of sequences and all modules with memory; tests use one small data set.", "anchors": ["pybrain/tools/validation.py:SequenceHelper.getSequenceEnds, getSequenceEndsImportance, ModuleValidator, testOnSequenceData"]}
{"id": "C200", "title": "Samples of Cauchy distributions", "statement": "multivariateCauchy draws samples whose components are independent and have Cauchy distributions around the given means, with the scales given by the matrix; the scale does not depend on whether only the diagonal is used, and with the full matrix samples are spread along the directions of the matrix.", "quantifier": "all dimensions, means, matrices and singular value decompositions; all outcomes of the random numbers", "why_tests_cant": "A statement on distributions over the reals; a test sees finitely many samples of a distribution without a mean.", "anchors": ["pybrain/tools/functions.py:multivariateCauchy"]}
{"id": "C201", "title": "Drawing while the environment runs", "statement": "What the renderers of the simple and the cart-pole environment draw while another thread changes the data is what the data were after some number of complete calls of updateData and reset, in the order of the calls; when the calls have ended, the last of them is shown; the renderer ends after stop, and no thread waits forever. The cart is drawn under the foot of the pole, the pole with its length and angle, and the cart is green only if the pole is nearly upright and the cart nearly in the middle.", "quantifier": "all sequences of calls and all schedules of the two threads", "why_tests_cant": "The result depends on the schedule of two threads; a test sees a few schedules of very many.", "anchors": ["pybrain/rl/environments/simple/renderer.py:SimpleRenderer", "pybrain/rl/environments/cartpole/renderer.py:CartPoleRenderer"]}
{"id": "C202", "title": "Sending states to viewers in threads", "statement": "While the ship environment is used with viewers, never do two threads send at the same time, the states that are sent are states of the environment in their order, and no state before a reset is sent after the signal of the reset; whenever no thread is under way, the next action starts one, and it sends the state then reached, whatever happened before.", "quantifier": "all sequences of actions and resets, all schedules of any number of threads, exceptions at any point where the network is used", "why_tests_cant": "The result depends on the schedule of unboundedly many threads and on where an exception happens.", "anchors": ["pybrain/rl/environments/shipsteer/shipsteer.py:ShipSteeringEnvironment.performAction, reset, updateRenderer", "pybrain/utilities.py:threaded"]}
{"id": "C203", "title": "Starting a renderer", "statement": "start may be called any number of times and by any threads: the renderer is started by the first call and never more than once, later calls do nothing, and after a call the renderer runs; no call raises an exception, also when the renderer has finished.", "quantifier": "all schedules of any number of callers and of the end of the renderer", "why_tests_cant": "The result depends on the schedule of unboundedly many calls.", "anchors": ["pybrain/rl/environments/renderer.py:Renderer.start, run"]}
{"id": "C204", "title": "Messages to the viewers of a physical world", "statement": "Each message to the viewers of an ODE world shows one state of the world: positions and rotations of all bodies as they were at the same time, and messages show the states in their order; whenever no thread is under way, the next step of the world is shown, whatever happened before.", "quantifier": "any number of bodies, steps and threads, all schedules, exceptions at any point where the network is used", "why_tests_cant": "A message is built by a thread while the world may make steps; the result depends on the schedule.", "anchors": ["pybrain/rl/environments/ode/environment.py:ODEEnvironment.step, updateClients"]}
{"id": "C205", "title": "Sending while another thread listens", "statement": "While one thread of a program listens for clients, another one may send: send raises no exception, sends to each client at most once, and to all clients that are connected all the time.", "quantifier": "all lists of clients, all changes by listen, all schedules of the two threads", "why_tests_cant": "The result depends on the schedule; clients are dropped after a timeout only.", "anchors": ["pybrain/tools/networking/udpconnection.py:UDPServer.send, listen, addClient"]}
{"id": "C206", "title": "What viewers make of messages", "statement": "The viewer of the flexible cube shows the last state that arrived and, after the signal of a reset, the picture of the start; the viewer of the ship moves it from the origin, where it is after a reset, in the direction of its heading and by its speed; lost messages do no harm.", "quantifier": "all sequences of states, resets and lost messages", "why_tests_cant": "The result depends on histories of any length and on which messages are lost.", "anchors": ["pybrain/rl/environments/flexcube/viewer.py:FlexCubeRenderer.drawIdleScene", "pybrain/rl/environments/shipsteer/viewer.py:FlexCubeRenderer.drawIdleScene", "pybrain/tools/networking/udpconnection.py:UDPServer.send, UDPClient.listen"]}
