import Verif.Accuracy.Examples
import Verif.Accuracy.Far
import Verif.Accuracy.Model
import Verif.Accuracy.Props
import Verif.Awk.Ampl
import Verif.Awk.Examples
import Verif.Awk.Model
import Verif.Awk.Props
import Verif.Body.Contour
import Verif.Body.Cut
import Verif.Body.Default
import Verif.Body.Examples
import Verif.Body.Geometry
import Verif.Body.Lemmas
import Verif.Body.Message
import Verif.Body.Model
import Verif.Body.Order
import Verif.Body.OrderExamples
import Verif.Body.Props
import Verif.Body.Winding
import Verif.Body.WindingExamples
import Verif.Calm.Examples
import Verif.Calm.Phases
import Verif.Calm.Props
import Verif.Calm.Solve
import Verif.Calm.Spec
import Verif.Common.Dec
import Verif.Common.Ext
import Verif.Common.Float
import Verif.Common.FloatError
import Verif.Common.FloatLemmas
import Verif.Common.Outcome
import Verif.Common.Sci
import Verif.Common.SciRead
import Verif.Common.Vec
import Verif.Derived.Examples
import Verif.Derived.Model
import Verif.Derived.Props
import Verif.Draw.Cells
import Verif.Draw.CellsExamples
import Verif.Draw.Examples
import Verif.Draw.Frame
import Verif.Draw.Model
import Verif.Draw.Props
import Verif.Draw.Spec
import Verif.Draw.Text
import Verif.Epsilon.Examples
import Verif.Epsilon.Lemmas
import Verif.Epsilon.Model
import Verif.Epsilon.Props
import Verif.Epsilon.Radii
import Verif.Epsilon.Tree
import Verif.Eval.Model
import Verif.Eval.Props
import Verif.Field.Examples
import Verif.Field.Ieee
import Verif.Field.Lemmas
import Verif.Field.Model
import Verif.Field.Props
import Verif.Flow.Balance
import Verif.Flow.Clean
import Verif.Flow.Examples
import Verif.Flow.Heat
import Verif.Flow.HeatProps
import Verif.Flow.Model
import Verif.Flow.Motion
import Verif.Flow.Props
import Verif.Flow.Step
import Verif.Flow.Stops
import Verif.Forces.Convect
import Verif.Forces.Examples
import Verif.Forces.Model
import Verif.Forces.Props
import Verif.Gen.Area
import Verif.Gen.AreaExamples
import Verif.Gen.AreaMore
import Verif.Gen.Examples
import Verif.Gen.Model
import Verif.Gen.Params
import Verif.Gen.Props
import Verif.Gen.Round
import Verif.Gen.Shape
import Verif.Getopt.Examples
import Verif.Getopt.Model
import Verif.Getopt.Props
import Verif.Getopt.Scan
import Verif.Getopt.Spec
import Verif.Hdf.Examples
import Verif.Hdf.Lemmas
import Verif.Hdf.Load
import Verif.Hdf.Model
import Verif.Hdf.Props
import Verif.Hdf.Save
import Verif.Hdf.Spec
import Verif.Hdf.Values
import Verif.Hdf.ValuesExamples
import Verif.Interp.Apart
import Verif.Interp.Examples
import Verif.Interp.Lemmas
import Verif.Interp.Model
import Verif.Interp.Own
import Verif.Interp.Pure
import Verif.Isoline.Ends
import Verif.Isoline.Examples
import Verif.Isoline.Levels
import Verif.Isoline.Merge
import Verif.Isoline.Model
import Verif.Isoline.Props
import Verif.Legacy.Examples
import Verif.Legacy.Model
import Verif.Legacy.Props
import Verif.Legacy.Spec
import Verif.Lists.Examples
import Verif.Lists.Model
import Verif.Lists.Props
import Verif.Loop.Examples
import Verif.Loop.Model
import Verif.Loop.Names
import Verif.Loop.Props
import Verif.Loop.Resume
import Verif.Loop.Rounded
import Verif.Matrix.Hash
import Verif.Matrix.Lemmas
import Verif.Matrix.Model
import Verif.Matrix.Props
import Verif.Mirror.Examples
import Verif.Mirror.Iso
import Verif.Mirror.Props
import Verif.Mirror.Spec
import Verif.Options.Examples
import Verif.Options.Model
import Verif.Options.Props
import Verif.Options.Spec
import Verif.Order.Examples
import Verif.Order.Flow
import Verif.Order.Slae
import Verif.Order.Solved
import Verif.Order.Spec
import Verif.Own.Examples
import Verif.Own.Lemmas
import Verif.Own.Model
import Verif.Own.Props
import Verif.Par.Code
import Verif.Par.Core
import Verif.Par.Examples
import Verif.Par.Maps
import Verif.Par.Model
import Verif.Par.Order
import Verif.Par.Props
import Verif.Par.Vel
import Verif.Params.Examples
import Verif.Params.Model
import Verif.Params.Props
import Verif.Passive.Examples
import Verif.Passive.Props
import Verif.Plot.Examples
import Verif.Plot.Model
import Verif.Plot.Props
import Verif.Probe.Examples
import Verif.Probe.Model
import Verif.Probe.Props
import Verif.Probe.Taylor
import Verif.Profile.Examples
import Verif.Profile.Hide
import Verif.Profile.Model
import Verif.Profile.Props
import Verif.Profile.Solver
import Verif.Program.Examples
import Verif.Program.Model
import Verif.Program.Props
import Verif.Restart.Circulation
import Verif.Restart.CirculationExamples
import Verif.Restart.Examples
import Verif.Restart.Model
import Verif.Restart.Props
import Verif.Scale.Body
import Verif.Scale.Diffusion
import Verif.Scale.Epsilon
import Verif.Scale.Examples
import Verif.Scale.Flow
import Verif.Scale.Run
import Verif.Scale.RunExamples
import Verif.Scale.Slae
import Verif.Scale.Solved
import Verif.Scale.Spec
import Verif.Scale.Step
import Verif.Scale.Tree
import Verif.Scale.Velocity
import Verif.Script.Examples
import Verif.Script.Model
import Verif.Script.Props
import Verif.Sensors.Examples
import Verif.Sensors.Model
import Verif.Sensors.Props
import Verif.Sentinel.Examples
import Verif.Sentinel.Lemmas
import Verif.Sentinel.Props
import Verif.Shell.Model
import Verif.Shell.Props
import Verif.Shift.Body
import Verif.Shift.Epsilon
import Verif.Shift.Examples
import Verif.Shift.Flow
import Verif.Shift.Run
import Verif.Shift.RunExamples
import Verif.Shift.Slae
import Verif.Shift.Solved
import Verif.Shift.Spec
import Verif.Shift.Step
import Verif.Shift.StepExamples
import Verif.Shift.Tree
import Verif.Shift.Velocity
import Verif.Sim.Bodies
import Verif.Sim.Divisors
import Verif.Sim.Examples
import Verif.Sim.FarEnds
import Verif.Sim.FarEndsExamples
import Verif.Sim.Field
import Verif.Sim.Free
import Verif.Sim.Groups
import Verif.Sim.GroupsExamples
import Verif.Sim.Lemmas
import Verif.Sim.Machine
import Verif.Sim.MachineExamples
import Verif.Sim.Model
import Verif.Sim.Mutual
import Verif.Sim.MutualExamples
import Verif.Sim.Progress
import Verif.Sim.Props
import Verif.Sim.Solved
import Verif.Sim.Still
import Verif.Sim.Stuck
import Verif.Sim.StuckExamples
import Verif.Sim.Surface
import Verif.Sim.Walls
import Verif.Slae.Direct
import Verif.Slae.DirectExamples
import Verif.Slae.Examples
import Verif.Slae.Exists
import Verif.Slae.Fill
import Verif.Slae.Frozen
import Verif.Slae.Kernel
import Verif.Slae.Model
import Verif.Slae.Numbers
import Verif.Slae.Physics
import Verif.Slae.Props
import Verif.Slae.Returns
import Verif.Slae.ReturnsExamples
import Verif.Slae.Rows
import Verif.Slae.Solve
import Verif.Slae.Surface
import Verif.Slae.Twice
import Verif.Slae.TwiceExamples
import Verif.Slae.Unique
import Verif.Slae.Whole
import Verif.Stepdata.Crash
import Verif.Stepdata.Examples
import Verif.Stepdata.Lemmas
import Verif.Stepdata.Model
import Verif.Stepdata.Props
import Verif.Stepdata.Session
import Verif.Stepdata.Spec
import Verif.Time.Lemmas
import Verif.Time.Model
import Verif.Time.Props
import Verif.Time.Setter
import Verif.Time.SetterProps
import Verif.Tow.Drag
import Verif.Tow.Examples
import Verif.Tow.Free
import Verif.Tow.Slae
import Verif.Tow.Solved
import Verif.Tow.Spec
import Verif.Tree.Examples
import Verif.Tree.Lemmas
import Verif.Tree.Model
import Verif.Tree.Mutual
import Verif.Tree.MutualExamples
import Verif.Tree.Props
import Verif.Turn.Basic
import Verif.Turn.Body
import Verif.Turn.Epsilon
import Verif.Turn.Examples
import Verif.Turn.Field
import Verif.Turn.Flow
import Verif.Turn.Inside
import Verif.Turn.Run
import Verif.Turn.Slae
import Verif.Turn.Solved
import Verif.Turn.Spec
import Verif.Turn.Velocity
import Verif.View.Examples
import Verif.View.Model
import Verif.View.Props
import Verif.View.Spec
import Verif.Whole.Examples
import Verif.Whole.Forget
import Verif.Whole.Model
import Verif.Whole.Props
import Verif.Whole.Restart
import Verif.Xfield.Agree
import Verif.Xfield.Examples
import Verif.Xfield.Gaps
import Verif.Xfield.Layer
import Verif.Xfield.Maps
import Verif.Xfield.MapsExamples
import Verif.Xfield.Mesh
import Verif.Xfield.Model
import Verif.Xfield.Numbers
import Verif.Xfield.NumbersExamples
import Verif.Xfield.Pres
import Verif.Xfield.PresBody
import Verif.Xfield.Rate
import Verif.Xfield.RateExamples
import Verif.Xfield.Shared
import Verif.Xfield.Stream
import Verif.Xfield.Vort
import Verif.Xtract.Bodies
import Verif.Xtract.Examples
import Verif.Xtract.Info
import Verif.Xtract.Model
import Verif.Xtract.Spec
import Verif.Xtract.Table
