import Verif.Props.Graph
import Verif.Props.Eval
import Verif.Props.DependsOn
import Verif.Props.Gradient
import Verif.Props.GradWitness
import Verif.Props.GradReal
import Verif.Props.Variables
import Verif.Props.OptimizerState
import Verif.Props.AxesAll
import Verif.Props.BinaryAccepts
import Verif.Props.BinaryOps
import Verif.Props.BinaryRank
import Verif.Props.ReductionPanics
import Verif.Props.Reductions
import Verif.Props.Compare
import Verif.Props.AddN
import Verif.Props.ArgMax
import Verif.Props.Rearrange
import Verif.Props.Slices
import Verif.Props.Gather
import Verif.Props.ExpandSqueeze
import Verif.Props.Elementwise
import Verif.Props.Softmax
import Verif.Props.StopGradient
import Verif.Props.CrossEntropy
import Verif.Props.MatMul
import Verif.Props.Tensordot
import Verif.Props.MaxPool
import Verif.Props.Conv
import Verif.Props.Optimizers
import Verif.Props.UpdateStep
import Verif.Props.Aliasing
import Verif.Props.ShapeHint
import Verif.Props.Program
import Verif.Props.Random
import Verif.Props.SetDiff
import Verif.Props.Classifier
import Verif.Props.TrainLoop
import Verif.Props.Calls
import Verif.Props.CallsFeeds
import Verif.Props.HigherOrder
import Verif.Props.Hvp
import Verif.Props.Lstm
import Verif.Props.Order
import Verif.Props.GradHelper
import Verif.Props.TestHelper
import Verif.Props.Cnn
import Verif.Props.Sine
import Verif.Props.CnnTrain
import Verif.Props.MlpMnist
import Verif.Props.CnnMnist
import Verif.Props.Mnist
import Verif.Props.Normalize
import Verif.Props.Jacobian
import Verif.Props.Hooks
import Verif.Props.Session
import Verif.Props.SizesGather
