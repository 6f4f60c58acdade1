import Verif.Memory.Model
import Verif.Memory.Lemmas
import Verif.Memory.Spec
import Verif.Memory.Refine
import Verif.Memory.Run
import Verif.Memory.Episodes
import Verif.Memory.Windows
import Verif.Memory.Facts
import Verif.Props.Memory
import Verif.Returns.Model
import Verif.Returns.Spec
import Verif.Returns.Lemmas
import Verif.Returns.Compute
import Verif.Returns.Refine
import Verif.Returns.Facts
import Verif.Props.Returns
import Verif.Schedule.Model
import Verif.Schedule.Spec
import Verif.Props.Schedule
import Verif.Env.Wrapper
import Verif.Env.Socket
import Verif.Env.Remote
import Verif.Env.Local
import Verif.Props.Wrapper
import Verif.Props.Socket
import Verif.Props.Remote
import Verif.Props.Local
import Verif.Utils.NestedDict
import Verif.Utils.NestedSpec
import Verif.Utils.NestedLemmas
import Verif.Props.NestedDict
import Verif.Utils.Signature
import Verif.Utils.SignatureLemmas
import Verif.Props.Signature
import Verif.Utils.PyVal
import Verif.Utils.PySpec
import Verif.Utils.PyLemmas
import Verif.Props.Config
import Verif.Utils.TensorSpec
import Verif.Utils.TensorSpecLemmas
import Verif.Props.TensorSpec
import Verif.Env.Create
import Verif.Env.CreateLemmas
import Verif.Props.Create
import Verif.Agent.Model
import Verif.Agent.Spec
import Verif.Agent.Lemmas
import Verif.Agent.Refine
import Verif.Agent.Facts
import Verif.Props.Agent
import Verif.Param.Model
import Verif.Param.Spec
import Verif.Param.Lemmas
import Verif.Param.Range
import Verif.Param.Sample
import Verif.Param.Piece
import Verif.Props.Param
import Verif.Prep.Model
import Verif.Prep.Spec
import Verif.Prep.Lemmas
import Verif.Props.Prep
import Verif.Explore.Model
import Verif.Explore.Spec
import Verif.Explore.Lemmas
import Verif.Props.Explore
import Verif.Optim.Model
import Verif.Optim.Spec
import Verif.Optim.Lemmas
import Verif.Optim.Sync
import Verif.Optim.Subsample
import Verif.Optim.Conj
import Verif.Optim.Float
import Verif.Props.Optim
import Verif.Props.Sync
import Verif.Props.Subsample
import Verif.Props.Conj
import Verif.Props.OptimFloat
import Verif.Runner.Model
import Verif.Runner.Spec
import Verif.Runner.Lemmas
import Verif.Runner.Visit
import Verif.Runner.Inv
import Verif.Runner.Counts
import Verif.Runner.Ends
import Verif.Runner.Alone
import Verif.Runner.Batch
import Verif.Runner.Best
import Verif.Runner.BestLemmas
import Verif.Props.Runner
import Verif.Runner.Trace
import Verif.Runner.Evaluation
import Verif.Props.Trace
import Verif.Props.Best
import Verif.Store.Model
import Verif.Store.Spec
import Verif.Store.Lemmas
import Verif.Store.SpecLemmas
import Verif.Store.Archive
import Verif.Store.ArchiveLemmas
import Verif.Props.Store
import Verif.Props.Archive
import Verif.Layer.Temporal
import Verif.Layer.TemporalSpec
import Verif.Layer.TemporalLemmas
import Verif.Props.Temporal
import Verif.Layer.Shape
import Verif.Layer.ShapeSpec
import Verif.Layer.ShapeLemmas
import Verif.Layer.ConvLemmas
import Verif.Layer.RetrieveLemmas
import Verif.Props.Shape
import Verif.Layer.Transform
import Verif.Layer.TransformLemmas
import Verif.Props.Transform
import Verif.Graph.Model
import Verif.Graph.Lemmas
import Verif.Props.Graph
import Verif.Policy.Model
import Verif.Policy.Spec
import Verif.Policy.Lemmas
import Verif.Policy.Real
import Verif.Policy.Rational
import Verif.Policy.Categorical
import Verif.Policy.Bounded
import Verif.Policy.InSpace
import Verif.Policy.Discrete
import Verif.Props.Policy
import Verif.Props.Distribution
import Verif.Policy.Value
import Verif.Policy.ValueLemmas
import Verif.Props.Value
import Verif.Props.Density
import Verif.Objective.Model
import Verif.Objective.Spec
import Verif.Objective.Lemmas
import Verif.Objective.Rational
import Verif.Props.Objective
import Verif.Objective.Setup
import Verif.Objective.SetupLemmas
import Verif.Props.Setup
import Verif.Session.Model
import Verif.Session.Spec
import Verif.Session.Lemmas
import Verif.Props.Session
import Verif.Session.Noise
import Verif.Session.NoiseLemmas
import Verif.Props.Noise
import Verif.Policy.Race
import Verif.Policy.SampleLemmas
import Verif.Policy.Soft
import Verif.Policy.ZipLemmas
import Verif.Props.Parameters
import Verif.Props.Sampling
import Verif.Props.Soft
import Verif.Props.Defaults
import Verif.Gym.Action
import Verif.Gym.Clip
import Verif.Gym.Cover
import Verif.Gym.Create
import Verif.Gym.Deep
import Verif.Gym.Dict
import Verif.Gym.Episodes
import Verif.Gym.Leaf
import Verif.Gym.Lemmas
import Verif.Gym.Level
import Verif.Gym.LevelLemmas
import Verif.Gym.LevelSpec
import Verif.Gym.Mask
import Verif.Gym.Model
import Verif.Gym.Names
import Verif.Gym.Observe
import Verif.Gym.Spec
import Verif.Gym.State
import Verif.Gym.Total
import Verif.Gym.Works
import Verif.Props.Gym
import Verif.Props.GymLevel
import Verif.Cart.Model
import Verif.Cart.Spec
import Verif.Cart.Motion
import Verif.Cart.Create
import Verif.Cart.Upright
import Verif.Cart.Parallel
import Verif.Cart.Range
import Verif.Cart.Real
import Verif.Props.Cart
import Verif.Gym.Bounds
import Verif.Gym.MaskFree
import Verif.Gym.Next
import Verif.Net.Model
import Verif.Net.Spec
import Verif.Net.Lemmas
import Verif.Net.Effect
import Verif.Net.Steps
import Verif.Net.Refine
import Verif.Net.Apply
import Verif.Net.Rows
import Verif.Net.Prep
import Verif.Props.Net
import Verif.Net.Auto
import Verif.Net.AutoSpec
import Verif.Net.AutoLemmas
import Verif.Props.Auto
import Verif.Props.Build
import Verif.Net.AcceptSpec
import Verif.Net.Accept
import Verif.Net.Names
import Verif.Props.Resolve
import Verif.Props.Train
import Verif.Summary.Model
import Verif.Summary.Spec
import Verif.Summary.Lemmas
import Verif.Summary.Directories
import Verif.Summary.Names
import Verif.Props.Summary
import Verif.Family.Model
import Verif.Family.Spec
import Verif.Family.Lemmas
import Verif.Family.LoadLemmas
import Verif.Family.PlaceLemmas
import Verif.Family.AcceptLemmas
import Verif.Props.Family
import Verif.Props.FamilyAccept
import Verif.Construct.Model
import Verif.Construct.Spec
import Verif.Construct.Lemmas
import Verif.Construct.UpdateLemmas
import Verif.Construct.CapacityLemmas
import Verif.Props.Choice
import Verif.Props.UpdateConfig
import Verif.Props.Capacity
import Verif.Props.Horizon
import Verif.Convert.Model
import Verif.Convert.Spec
import Verif.Convert.Lemmas
import Verif.Convert.SaveLemmas
import Verif.Props.Convert
import Verif.Props.Output
import Verif.Props.SpecSave
import Verif.Feed.Model
import Verif.Feed.Spec
import Verif.Feed.Lemmas
import Verif.Feed.SplitLemmas
import Verif.Feed.JoinLemmas
import Verif.Feed.ExtraLemmas
import Verif.Props.Forms
import Verif.Props.Experience
import Verif.Props.Pretrain
import Verif.Feed.MaskLemmas
import Verif.Feed.AcceptLemmas
import Verif.Props.Masks
import Verif.Props.FeedReject
import Verif.Act.Model
import Verif.Act.Spec
import Verif.Act.Lemmas
import Verif.Act.CallLemmas
import Verif.Act.RejectLemmas
import Verif.Act.OutputLemmas
import Verif.Act.AgainLemmas
import Verif.Act.InvLemmas
import Verif.Props.Act
import Verif.Props.ActInternals
import Verif.Props.ActOutput
import Verif.Props.ActParallel
import Verif.Norm.Model
import Verif.Norm.Spec
import Verif.Norm.GroupLemmas
import Verif.Norm.NormLemmas
import Verif.Norm.LinearLemmas
import Verif.Props.Linear
import Verif.Props.Moving
import Verif.Props.Normal
import Verif.Props.Clipping
import Verif.Rand.Model
import Verif.Rand.Spec
import Verif.Rand.Lemmas
import Verif.Rand.ProcessLemmas
import Verif.Props.Random
import Verif.Props.Process
import Verif.Const.Model
import Verif.Const.Spec
import Verif.Const.Lemmas
import Verif.Props.Constant
import Verif.Norm.BoundLemmas
import Verif.Props.LinearBounds
import Verif.Obs.Model
import Verif.Obs.Spec
import Verif.Obs.Lemmas
import Verif.Obs.StateLemmas
import Verif.Obs.PromptLemmas
import Verif.Props.ObserveForms
import Verif.Props.ObserveState
import Verif.Wrap.Model
import Verif.Wrap.Spec
import Verif.Wrap.Lemmas
import Verif.Props.OptWrap
import Verif.Grad.Model
import Verif.Grad.Spec
import Verif.Grad.Lemmas
import Verif.Grad.NaturalLemmas
import Verif.Props.Gradient
import Verif.Props.Natural
import Verif.Saver.Model
import Verif.Saver.Spec
import Verif.Saver.Lemmas
import Verif.Props.Saver
import Verif.Props.Load
import Verif.Game.Model
import Verif.Game.Spec
import Verif.Game.Lemmas
import Verif.Props.Arcade
import Verif.Props.Doom
import Verif.Props.Adapters
import Verif.Launch.Model
import Verif.Launch.Spec
import Verif.Launch.Lemmas
import Verif.Launch.Command
import Verif.Launch.CommandSpec
import Verif.Launch.CommandLemmas
import Verif.Props.RunnerInit
import Verif.Props.Command
import Verif.Props.Callbacks
import Verif.Props.Image
import Verif.Props.Embedding
import Verif.Init.Model
import Verif.Init.Spec
import Verif.Init.Lemmas
import Verif.Props.Variables
import Verif.Props.Weights
import Verif.Mix.Model
import Verif.Mix.Spec
import Verif.Mix.Lemmas
import Verif.Props.Attention
import Verif.Props.Activation
import Verif.Pool.Model
import Verif.Pool.Spec
import Verif.Pool.Lemmas
import Verif.Props.GlobalPool
import Verif.Props.LocalPool
import Verif.Tune.Model
import Verif.Tune.Spec
import Verif.Tune.Lemmas
import Verif.Props.Tuner
import Verif.Conv.Model
import Verif.Conv.Spec
import Verif.Conv.Lemmas
import Verif.Props.Convolution
import Verif.Conv.Transpose
import Verif.Conv.TransposeLemmas
import Verif.Props.Transposed
