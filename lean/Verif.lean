import Verif.Adjoint.Props
import Verif.Basic.Res
import Verif.Box.Consistency
import Verif.Box.Exists
import Verif.Box.Flow
import Verif.Box.Friction
import Verif.Box.Props
import Verif.Box.Stationary
import Verif.Box.Unique
import Verif.Command.Adaptor
import Verif.Command.Defined
import Verif.Command.DefinedExample
import Verif.Command.Exit
import Verif.Command.Machine
import Verif.Command.Own
import Verif.Command.ProblemSchema
import Verif.Command.Program
import Verif.Command.ProgramExample
import Verif.Command.Repeat
import Verif.Command.Settings
import Verif.Command.Succeeds
import Verif.Command.Unconstrained
import Verif.Editor.Component
import Verif.Editor.Defaults
import Verif.Editor.Example
import Verif.Editor.Model
import Verif.Editor.Props
import Verif.Editor.Values
import Verif.Editor.ValuesExample
import Verif.Editor.Witness
import Verif.Euler.Colebrook
import Verif.Euler.Physics
import Verif.Euler.Props
import Verif.Euler.Smooth
import Verif.Euler.Source
import Verif.Evolve.Conjugate
import Verif.Evolve.Newton
import Verif.Evolve.Props
import Verif.Evolve.Restart
import Verif.Files.Epoch
import Verif.Files.InsertKey
import Verif.Files.MakeSchemas
import Verif.Files.Overwrite
import Verif.Files.Root
import Verif.Files.Timestamp
import Verif.Files.Unique
import Verif.Float.Binary64
import Verif.Float.Exact
import Verif.Float.Grid
import Verif.Float.Interp
import Verif.Float.Objective
import Verif.Float.Oup
import Verif.Float.Rounding
import Verif.Gas.Edges
import Verif.Gas.Ends
import Verif.Gas.Nodes
import Verif.Gas.Sink
import Verif.Graph.Boundary
import Verif.Graph.Consistent
import Verif.Graph.Factory
import Verif.Graph.Merge
import Verif.Graph.Model
import Verif.Graph.Network
import Verif.Graph.Order
import Verif.Graph.Props
import Verif.Graph.Remove
import Verif.Handler.Props
import Verif.Helpers.Boundary
import Verif.Helpers.Collect
import Verif.Helpers.CollectProps
import Verif.Helpers.Connect
import Verif.Helpers.Discrepance
import Verif.Helpers.DiscrepanceFile
import Verif.Helpers.DiscrepanceProps
import Verif.Helpers.Draw
import Verif.Helpers.Heatmap
import Verif.Helpers.InitialStrings
import Verif.Helpers.Print
import Verif.Helpers.ScaleExample
import Verif.Helpers.Statistics
import Verif.Helpers.Stringify
import Verif.IndexLambda.Props
import Verif.Initial.Check
import Verif.Initial.Model
import Verif.Initial.Order
import Verif.Initial.Props
import Verif.Interp.Construct
import Verif.Interp.Props
import Verif.Interp.Views
import Verif.Jacobian.Ipopt
import Verif.Jacobian.Props
import Verif.Jacobian.Views
import Verif.Json.Defaults
import Verif.Json.Insert
import Verif.Json.Order
import Verif.Json.Positions
import Verif.Json.PositionsFile
import Verif.Json.Schema
import Verif.Net.Jacobian
import Verif.Network.Balance
import Verif.Network.Circles
import Verif.Network.Circulation
import Verif.Network.Conserve
import Verif.Network.Constraint
import Verif.Network.Converge
import Verif.Network.ConvergeExample
import Verif.Network.Cost
import Verif.Network.Defect
import Verif.Network.Drift
import Verif.Network.EquationCache
import Verif.Network.Equilibrium
import Verif.Network.Example
import Verif.Network.Floating
import Verif.Network.Implicit
import Verif.Network.Index
import Verif.Network.Jacobian
import Verif.Network.Laws
import Verif.Network.LawsExample
import Verif.Network.Losses
import Verif.Network.Optimize
import Verif.Network.OptimizeExample
import Verif.Network.OptimizeTurbulent
import Verif.Network.Pattern
import Verif.Network.PipeExample
import Verif.Network.Reverse
import Verif.Network.Rows
import Verif.Network.ShortCircles
import Verif.Network.Simulate
import Verif.Network.SimulateExample
import Verif.Network.Slack
import Verif.Network.Smooth
import Verif.Network.Static
import Verif.Network.StaticControl
import Verif.Network.Storage
import Verif.Network.Symmetry
import Verif.Network.Tree
import Verif.Network.Turbulent
import Verif.Newton.Damping
import Verif.Newton.Local
import Verif.Newton.Props
import Verif.OptState.EquationCache
import Verif.OptState.EquationCacheProps
import Verif.OptState.Finish
import Verif.OptState.Props
import Verif.OptTimes.Props
import Verif.Output.Continue
import Verif.Output.ControlCsv
import Verif.Output.Controls
import Verif.Output.Csv
import Verif.Output.Model
import Verif.Output.Props
import Verif.Output.Restart
import Verif.Output.SetAll
import Verif.Power.Props
import Verif.Read.Accept
import Verif.Read.AcceptExample
import Verif.Read.AcceptGraph
import Verif.Read.AcceptNet
import Verif.Read.AcceptRun
import Verif.Read.AcceptRunExample
import Verif.Read.AcceptState
import Verif.Read.Boundary
import Verif.Read.Compute
import Verif.Read.ControlCsv
import Verif.Read.Csv
import Verif.Read.Defaults
import Verif.Read.Defined
import Verif.Read.DefinedNet
import Verif.Read.DefinedOpt
import Verif.Read.DefinedRun
import Verif.Read.EndToEnd
import Verif.Read.EndToEndExample
import Verif.Read.Example
import Verif.Read.Memory
import Verif.Read.Model
import Verif.Read.Nlp
import Verif.Read.NlpAvail
import Verif.Read.NlpContinue
import Verif.Read.NlpContinueExample
import Verif.Read.NlpConvex
import Verif.Read.NlpDerivExample
import Verif.Read.NlpExample
import Verif.Read.NlpGrad
import Verif.Read.NlpJac
import Verif.Read.NlpLemmas
import Verif.Read.NlpMemory
import Verif.Read.NlpProps
import Verif.Read.NlpStatic
import Verif.Read.NlpStaticExample
import Verif.Read.NlpTurbulent
import Verif.Read.NlpTurbulentRead
import Verif.Read.NlpUnavail
import Verif.Read.NlpUnavailExample
import Verif.Read.Output
import Verif.Read.Props
import Verif.Read.Replay
import Verif.Read.ReplayExample
import Verif.Read.Results
import Verif.Read.ResultsLaws
import Verif.Read.ResultsLost
import Verif.Read.ResultsMain
import Verif.Read.ResultsNet
import Verif.Read.ResultsProps
import Verif.Read.Run
import Verif.Read.RunBegin
import Verif.Read.RunExample
import Verif.Read.RunProps
import Verif.Read.RunRead
import Verif.Read.Simulate
import Verif.Read.SimulateExample
import Verif.Schema.Model
import Verif.Schema.Props
import Verif.Schema.Validate
import Verif.SmoothAbs.Props
import Verif.Stochastic.Model
import Verif.Stochastic.Props
import Verif.Stochastic.Run
import Verif.Stochastic.Seed
import Verif.Stochastic.SeedSeq
import Verif.Times.Props
import Verif.Unit.Model
import Verif.Unit.Props
import Verif.Weights.Props
