import Verif.Props.Logger
import Verif.Props.FileLogger
import Verif.Props.Queue
import Verif.Props.QueueConc
import Verif.Props.Selectors
import Verif.Props.Combi
import Verif.Props.Convergence
import Verif.Props.Hunters
import Verif.Props.Float
import Verif.Props.HuntersReal
import Verif.Props.Manager
import Verif.Props.Helpers
import Verif.Props.Checkpoint
import Verif.Props.CheckpointSeries
import Verif.Props.Optimizer
import Verif.Props.RandomOpt
import Verif.Props.Generators
import Verif.Props.Basin
import Verif.Props.Setup
import Verif.Props.Load
import Verif.Props.Sessions
import Verif.Props.Rollback
import Verif.Props.Handshake
import Verif.Props.Params
import Verif.Props.Redirect
import Verif.Props.Scope
import Verif.Props.Benchmarks
import Verif.Props.Benchmarks2
import Verif.Props.Benchmarks3
import Verif.Props.LennardJones
import Verif.Props.BenchmarkDocs
import Verif.Props.CMA
import Verif.Props.CMAInject
import Verif.Props.GFLS
import Verif.Props.Nevergrad
import Verif.Props.NevergradSave
import Verif.Props.DeepSize
import Verif.Props.Nested
import Verif.Props.OldResults
import Verif.Props.Plot
import Verif.Props.PlotReal
import Verif.Props.ManagerCkpt
import Verif.Props.ManagerFeed
import Verif.Props.SplitLogs
import Verif.Props.AnnealGen
import Verif.Props.EndToEnd
import Verif.Props.Orders
import Verif.Props.Interrupt
import Verif.Props.ParamsWrap
import Verif.Props.Attributes
import Verif.Props.TaskSave
import Verif.Props.Interventions
import Verif.Props.Summary
import Verif.Props.Spawn
import Verif.Props.Headers
import Verif.Props.WorkDir
import Verif.Props.Resources
import Verif.Props.Restart
import Verif.Props.Reweigh
import Verif.Props.Benchmarks4
import Verif.Props.Benchmarks5
import Verif.Props.ManagerFile
import Verif.Props.Benchmarks6
import Verif.Props.ManagerHeads
import Verif.Props.Status
import Verif.Props.ManagerEnd
import Verif.Props.Criterion
import Verif.Props.LoadCheck
import Verif.Props.Hunt
import Verif.Props.HuntAll
import Verif.Props.HuntPrompt
import Verif.Props.LogBuffer
import Verif.Props.Settings
import Verif.Props.DefaultCriterion
import Verif.Props.LogAttributes
import Verif.Props.Trials
import Verif.Props.RunClass
import Verif.Props.BestIter
import Verif.Props.KillsAfter
import Verif.Props.CMASettings
import Verif.Props.Names
import Verif.Props.Movie
import Verif.Props.Overshoot
import Verif.Props.Bundled
import Verif.Props.Turns
