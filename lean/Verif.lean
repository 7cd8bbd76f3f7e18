import Verif.Base
import Verif.Handlers
import Verif.Material
import Verif.Build
import Verif.Equil
import Verif.Solver
import Verif.Run
import Verif.Plot
import Verif.Log
import Verif.Instances
import Verif.Examples
import Verif.Spec.Input
import Verif.Spec.Tables
import Verif.Spec.Plasticity
import Verif.Spec.Commit
import Verif.Lemmas.NumPy
import Verif.Lemmas.Handlers
import Verif.Lemmas.Build
import Verif.Lemmas.Tables
import Verif.Lemmas.Plasticity
import Verif.Props.Input
import Verif.Props.Handlers
import Verif.Props.Material
import Verif.Spec.Newton
import Verif.Lemmas.Newton
import Verif.Props.Newton
import Verif.Spec.Linear
import Verif.Spec.Path
import Verif.Lemmas.Solver
import Verif.Lemmas.Path
import Verif.Lemmas.Width
import Verif.Lemmas.Fuel
import Verif.Lemmas.Control
import Verif.ExamplesPath
import Verif.ExamplesReal
import Verif.Props.Path
import Verif.Props.PathReal
import Verif.Spec.Structure
import Verif.Lemmas.Equil
import Verif.Spec.Evaluation
import Verif.Spec.Mechanics
import Verif.ExamplesStruct
import Verif.Lemmas.Frame
import Verif.Lemmas.Mechanics
import Verif.Props.Eval
import Verif.Props.Mechanics
import Verif.Lemmas.Jacobian
import Verif.Props.Jacobian
import Verif.Spec.Energy
import Verif.Props.Energy
import Verif.Spec.Run
import Verif.Lemmas.Trial
import Verif.Lemmas.Run
import Verif.ExamplesRun
import Verif.Props.Run
import Verif.Spec.Plot
import Verif.Lemmas.Plot
import Verif.Props.Plot
import Verif.Spec.Log
import Verif.Props.Log
import Verif.Heap
import Verif.Lemmas.Heap
import Verif.Props.Heap
import Verif.Spec.Entered
import Verif.Spec.Reaction
import Verif.Spec.Valid
import Verif.Lemmas.Accepted
import Verif.Lemmas.Total
import Verif.ExamplesValid
import Verif.Props.EndToEnd
import Verif.ExamplesAccept
import Verif.Props.Equilibrium
import Verif.Spec.Relabel
import Verif.Lemmas.Relabel
import Verif.Props.Relabel
import Verif.Spec.Causal
import Verif.Lemmas.Causal
import Verif.Lemmas.Compare
import Verif.Props.Causal
import Verif.Props.Abort
import Verif.Spec.Converge
import Verif.Lemmas.Converge
import Verif.Lemmas.Tame
import Verif.Lemmas.System
import Verif.Lemmas.Smooth
import Verif.Lemmas.SmallStep
import Verif.ExamplesExact
import Verif.Props.Converge
import Verif.Props.SmallStep
import Verif.Spec.Rigid
import Verif.Lemmas.Rigid
import Verif.ExamplesRigid
import Verif.Props.Rigid
import Verif.Lemmas.FirstStep
import Verif.Props.FirstStep
import Verif.Lemmas.Rebuild
import Verif.Props.Rebuild
import Verif.Draw
import Verif.Spec.Draw
import Verif.Lemmas.Draw
import Verif.Props.Draw
import Verif.Props.DrawLimits
import Verif.Props.DrawContour
import Verif.Lemmas.Drawable
import Verif.Props.Assign
import Verif.Props.Order
import Verif.Props.Curves
import Verif.Spec.Units
import Verif.Lemmas.Units
import Verif.Props.Units
import Verif.Results
import Verif.Spec.Results
import Verif.Lemmas.Getters
import Verif.Props.Getters
import Verif.Props.DeadCalls
import Verif.Spec.Width
import Verif.Lemmas.WidthLog
import Verif.Props.WidthLog
import Verif.Spec.Mirror
import Verif.Lemmas.Mirror
import Verif.Spec.Congruent
import Verif.Lemmas.Congruent
import Verif.Lemmas.CongruentRun
import Verif.Lemmas.CongruentBuild
import Verif.Props.Congruent
import Verif.Report
import Verif.Spec.Report
import Verif.Lemmas.Report
import Verif.Lemmas.ReportRun
import Verif.Props.Report
import Verif.Lemmas.Unique
import Verif.Props.Yield
import Verif.Spec.Work
import Verif.Props.Limit
import Verif.Lemmas.Balance
import Verif.Props.Balance
import Verif.Props.Parallel
import Verif.Spec.Edit
import Verif.Lemmas.Edit
import Verif.Props.Edit
import Verif.Caught
import Verif.Spec.Caught
import Verif.Lemmas.Caught
import Verif.Props.Caught
import Verif.Spec.Rows
import Verif.Lemmas.Rows
import Verif.Props.Rows
import Verif.Spec.Follow
import Verif.Lemmas.Follow
import Verif.Props.Follow
import Verif.Spec.Snap
import Verif.Lemmas.Snap
import Verif.Props.Snap
import Verif.Spec.Trail
import Verif.Lemmas.Trail
import Verif.Lemmas.TrailRun
import Verif.Lemmas.Rough
import Verif.Lemmas.Held
import Verif.Lemmas.StagesRun
import Verif.Spec.Stages
import Verif.Props.Stages
import Verif.Props.Trail
import Verif.Props.TwoBar
import Verif.Spec.FreePath
import Verif.Lemmas.AutoBound
import Verif.Lemmas.AutoStep
import Verif.Lemmas.Auto
import Verif.Lemmas.AutoLoop
import Verif.Lemmas.SnapSlope
import Verif.Props.Auto
import Verif.Props.AutoSnap
import Verif.Spec.FreeTrail
import Verif.Lemmas.FreeTrail
import Verif.Props.FreeTrail
import Verif.Props.TwoBarFree
import Verif.Lemmas.Curve
import Verif.Spec.LoadPath
import Verif.Lemmas.LoadPath
import Verif.Props.LoadPath
import Verif.Props.TwoBarLinear
import Verif.Spec.Inexact
import Verif.Lemmas.Inexact
import Verif.Props.Inexact
import Verif.Props.CaughtState
import Verif.Lemmas.Calm
import Verif.Props.PlasticPath
import Verif.Spec.Drive
import Verif.Lemmas.OneDof
import Verif.Lemmas.Drive
import Verif.Props.Drive
import Verif.Spec.Rounded
import Verif.Lemmas.Close
import Verif.Lemmas.RoundNewton
import Verif.ExamplesFix
import Verif.Props.RoundNewton
import Verif.Spec.RoundedTruss
import Verif.Lemmas.RoundEval
import Verif.ExamplesRound
import Verif.Props.RoundEval
import Verif.Spec.RoundedPath
import Verif.Lemmas.RoundSystem
import Verif.Lemmas.RoundFollow
import Verif.Props.RoundFollow
import Verif.Spec.Ieee
import Verif.Lemmas.Ieee
import Verif.ExamplesFloat
import Verif.Props.Ieee
import Verif.Spec.RoundedRun
import Verif.Lemmas.RoundRun
import Verif.Props.RoundRun
import Verif.Spec.NonFinite
import Verif.Lemmas.NonFinite
import Verif.Props.NonFinite
import Verif.Args
import Verif.Spec.Args
import Verif.Props.Args
import Verif.Lemmas.Quick
import Verif.Props.Quick
import Verif.Props.History
import Verif.Interrupted
import Verif.Lemmas.Interrupted
import Verif.Props.Interrupted
import Verif.Spec.Split
import Verif.Lemmas.Split
import Verif.Props.Split
import Verif.Spec.Influence
import Verif.Lemmas.Sim
import Verif.Lemmas.Influence
import Verif.Props.Influence
import Verif.Spec.Symmetry
import Verif.Lemmas.Keep
import Verif.Lemmas.SymmetricSystem
import Verif.Lemmas.Symmetry
import Verif.Lemmas.SymmetryStep
import Verif.Lemmas.SymmetryRun
import Verif.Props.Symmetry
import Verif.Props.SymmetryChoice
import Verif.Spec.Held
import Verif.Lemmas.Apart
import Verif.Props.Apart
import Verif.Spec.InStep
import Verif.Props.JacobianRun
import Verif.Spec.Bounded
import Verif.Lemmas.Bounded
import Verif.Props.Bounded
