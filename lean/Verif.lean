import Verif.Props.DataSet
import Verif.Props.Sequential
import Verif.Props.Classification
import Verif.Props.TopoSort
import Verif.Props.Network
import Verif.Props.Layers
import Verif.Props.Params
import Verif.Props.Recurrent
import Verif.Props.Functions
import Verif.Props.BackTwice
import Verif.Props.Codes
import Verif.Props.Enumerate
import Verif.Props.Search
import Verif.Props.Blocks
import Verif.Props.NonDominated
import Verif.Props.Crowding
import Verif.Props.Ranking
import Verif.Props.Optimizer
import Verif.Props.Masked
import Verif.Props.Validation
import Verif.Props.GridSearch
import Verif.Props.CaptureGame
import Verif.Props.Gomoku
import Verif.Props.Maze
import Verif.Props.Tournament
import Verif.Props.ValueBased
import Verif.Props.PolicyIteration
import Verif.Props.Task
import Verif.Props.Agent
import Verif.Props.GradientDescent
import Verif.Props.Converge
import Verif.Props.Evolino
import Verif.Props.MinHash
import Verif.Props.NearOptimal
import Verif.Props.Windows
import Verif.Props.Normalizer
import Verif.Props.FunctionTransform
import Verif.Props.Benchmark
import Verif.Props.Builder
import Verif.Props.BuildNetwork
import Verif.Props.XmlNet
import Verif.Props.Lstm
import Verif.Props.LstmNet
import Verif.Props.Mnist
import Verif.Props.Draw
import Verif.Props.GA
import Verif.Props.ES
import Verif.Props.PSO
import Verif.Props.Trainer
import Verif.Model.FiniteDifference
import Verif.Spec.Pinv
import Verif.Props.FiniteDifference
import Verif.Model.PolicyGradient
import Verif.Spec.PolicyGradient
import Verif.Props.PolicyGradient
import Verif.Model.Decomposable
import Verif.Spec.Decomposable
import Verif.Props.Decomposable
import Verif.Model.SequenceClass
import Verif.Spec.SequenceClass
import Verif.Props.SequenceClass
import Verif.Model.ImportanceMixing
import Verif.Spec.ImportanceMixing
import Verif.Props.ImportanceMixing
import Verif.Model.NES
import Verif.Spec.NES
import Verif.Lemmas.NES
import Verif.Props.NES
import Verif.Model.CMAES
import Verif.Spec.CMAES
import Verif.Props.CMAES
import Verif.Model.PCA
import Verif.Spec.PCA
import Verif.Props.PCA
import Verif.Model.KMeans
import Verif.Spec.KMeans
import Verif.Props.KMeans
import Verif.Model.GaussProcess
import Verif.Spec.GaussProcess
import Verif.Lemmas.GaussProcess
import Verif.Props.GaussProcess
import Verif.Model.LinearFA
import Verif.Spec.LinearFA
import Verif.Props.LinearFA
import Verif.Model.LinearFAAgent
import Verif.Spec.LinearFAAgent
import Verif.Props.LinearFAAgent
import Verif.Model.LeastSquares
import Verif.Spec.LeastSquares
import Verif.Props.LeastSquares
import Verif.Model.NFQ
import Verif.Spec.NFQ
import Verif.Props.NFQ
import Verif.Model.MazeTask
import Verif.Spec.MazeTask
import Verif.Props.MazeTask
import Verif.Model.CartPole
import Verif.Spec.CartPole
import Verif.Props.CartPole
import Verif.Props.Balance
import Verif.Model.Classic
import Verif.Spec.Classic
import Verif.Props.Classic
import Verif.Props.Acrobot
import Verif.Model.Xor
import Verif.Spec.Xor
import Verif.Props.Xor
import Verif.Model.Ship
import Verif.Props.Ship
import Verif.Model.GameTask
import Verif.Spec.GameTask
import Verif.Props.GameTask
import Verif.Model.Handicap
import Verif.Spec.Handicap
import Verif.Props.Handicap
import Verif.Model.Relative
import Verif.Spec.Relative
import Verif.Props.Relative
import Verif.Model.Mesh
import Verif.Spec.Mesh
import Verif.Lemmas.Mesh
import Verif.Props.Mesh
import Verif.Model.Swiping
import Verif.Spec.Swiping
import Verif.Lemmas.Swiping
import Verif.Props.Swiping
import Verif.Model.Bidirectional
import Verif.Spec.Bidirectional
import Verif.Props.Bidirectional
import Verif.Model.Convolution
import Verif.Spec.Convolution
import Verif.Lemmas.Convolution
import Verif.Lemmas.ConvBoard
import Verif.Props.Convolution
import Verif.Model.MdLstm
import Verif.Spec.MdLstm
import Verif.Props.MdLstm
import Verif.Model.MdNet
import Verif.Spec.MdNet
import Verif.Props.MdNet
import Verif.Model.Rbm
import Verif.Spec.Rbm
import Verif.Props.Rbm
import Verif.Model.EvolinoNet
import Verif.Spec.EvolinoNet
import Verif.Props.EvolinoNet
import Verif.Model.MultiObjective
import Verif.Spec.MultiObjective
import Verif.Props.MultiObjective
import Verif.Model.MultiBench
import Verif.Spec.MultiBench
import Verif.Props.MultiBench
import Verif.Props.LennardJones
import Verif.Model.GaussLayers
import Verif.Spec.GaussLayers
import Verif.Props.GaussLayers
import Verif.Model.Kohonen
import Verif.Props.Kohonen
import Verif.Model.Players
import Verif.Props.Players
import Verif.Model.SparseData
import Verif.Props.SparseData
import Verif.Model.CheapCopy
import Verif.Props.CheapCopy
import Verif.Model.KWArgs
import Verif.Props.KWArgs
import Verif.Model.Memetic
import Verif.Props.Memetic
import Verif.Model.DataEval
import Verif.Props.DataEval
import Verif.Model.NNTools
import Verif.Props.NNTools
import Verif.Model.FEM
import Verif.Props.FEM
import Verif.Model.VES
import Verif.Spec.VES
import Verif.Lemmas.VES
import Verif.Props.VES
import Verif.Model.Rank1
import Verif.Lemmas.Rank1
import Verif.Props.Rank1
import Verif.Model.RWR
import Verif.Props.RWR
import Verif.Model.Utilities
import Verif.Props.Utilities
import Verif.Props.UtilMatrices
import Verif.Model.Mixture
import Verif.Props.Mixture
import Verif.Model.Gpomdp
import Verif.Props.Gpomdp
import Verif.Model.Fisher
import Verif.Props.Fisher
import Verif.Model.Resampling
import Verif.Props.Resampling
import Verif.Model.Ibp
import Verif.Props.Ibp
import Verif.Model.Bbob
import Verif.Props.Bbob
import Verif.Model.BbobBase
import Verif.Props.BbobBase
import Verif.Model.SimpleEnv
import Verif.Props.SimpleEnv
import Verif.Model.Queued
import Verif.Props.Queued
import Verif.Model.Levin
import Verif.Props.Levin
import Verif.Model.Border
import Verif.Spec.Border
import Verif.Lemmas.Border
import Verif.Props.Border
import Verif.Model.SvmSearch
import Verif.Props.SvmSearch
import Verif.Model.RlGlue
import Verif.Props.RlGlue
import Verif.Model.Simplerace
import Verif.Props.Simplerace
import Verif.Model.FileHandling
import Verif.Props.FileHandling
import Verif.Model.XmlHandling
import Verif.Props.XmlHandling
import Verif.Model.Mdrnn
import Verif.Props.Mdrnn
import Verif.Model.Genome
import Verif.Props.Genome
import Verif.Model.Udp
import Verif.Props.Udp
import Verif.Model.Continuous
import Verif.Props.Continuous
import Verif.Model.Coevolution
import Verif.Props.Coevolution
import Verif.Props.CoevolutionSharing
import Verif.Props.CoevolutionPops
import Verif.Model.Xode
import Verif.Props.XmlStruct
import Verif.Props.XodeFile
import Verif.Model.FlexCube
import Verif.Props.FlexCube
import Verif.Props.FlexCubeTasks
import Verif.Model.FiniteDifferenceRprop
import Verif.Props.FiniteDifferenceRprop
import Verif.Model.NaturalGradient
import Verif.Props.NaturalGradient
import Verif.Model.Ode
import Verif.Model.OdeConfig
import Verif.Model.OdeTasks
import Verif.Props.Ode
import Verif.Props.OdeActuators
import Verif.Props.OdeConfig
import Verif.Props.OdeTasks
import Verif.Props.NelderMead
import Verif.Props.FastCartPole
import Verif.Props.FEMOptions
import Verif.Props.VESOptions
import Verif.Props.AutoNoise
import Verif.Props.Convert
import Verif.Props.SvmTrainer
import Verif.Props.ExTools
import Verif.Props.Assembly
import Verif.Props.SeqOneOfK
import Verif.Props.Maze89
import Verif.Props.CopySet
import Verif.Props.Multiline
import Verif.Props.FitPlot
import Verif.Props.Landscape
import Verif.Props.ClientPlayer
import Verif.Props.BbobCollection
import Verif.Props.XodeBody
import Verif.Props.Variations
import Verif.Props.OdeViewer
import Verif.Props.CubeDrawing
import Verif.Props.SeqValidation
import Verif.Props.Cauchy
import Verif.Props.Osy
import Verif.Props.VariationTexts
import Verif.Props.Renderers
import Verif.Props.RendererValues
import Verif.Props.UpdateThreads
import Verif.Props.UpdateResets
import Verif.Props.RendererStart
import Verif.Props.OdeUpdates
import Verif.Props.OdeUpdatesShown
import Verif.Props.UdpThreads
import Verif.Props.Viewers
