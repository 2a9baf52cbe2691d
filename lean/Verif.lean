import Verif.TimeLoop.Props
import Verif.TimeLoop.Setup
import Verif.Export.Props
import Verif.Callback.Props
import Verif.Turbine.Props
import Verif.Turbine.Props2
import Verif.Interp.Props
import Verif.RK.Props5
import Verif.RK.Props6
import Verif.Mass2.Props
import Verif.Coupled.Props
import Verif.Mode3D.Props
import Verif.Config.Props
import Verif.Forcing.Props
import Verif.Turb.ClosureProps
import Verif.Sediment.Props4
import Verif.Limiter.Props
import Verif.Detect.Props
import Verif.Log.Props
import Verif.Epoch.Props
import Verif.Coord.Props
import Verif.Extrude.Props
import Verif.Invert.Props2
import Verif.Invert.Props3
import Verif.Optim.Props
import Verif.Optim.Props2
import Verif.Equation.Props
import Verif.Schur.Props
import Verif.Fields.Props
import Verif.Tracer2.Props5
import Verif.Swe.Props6
import Verif.Ext.Props
import Verif.Tracer3.Props3
import Verif.Mom3.Props3
import Verif.Mom3.Props4
import Verif.Column.Props2
import Verif.Eos.Props2
import Verif.Smag.Props
import Verif.Layers.Props
import Verif.Split.Props
import Verif.Alloc.Props
import Verif.Morph.Props
import Verif.Geo.Props3
import Verif.NonHyd.Props
import Verif.Diag.Props2
import Verif.Picard.Props
import Verif.Probe.Props
import Verif.Source.Props
import Verif.Supg.Props
import Verif.Start.Props2
import Verif.Solver2.Props
import Verif.Rotor.Props
import Verif.Wall.Props
import Verif.Bound2.Props2
import Verif.WetDry.Props2
import Verif.Contract.Model
import Verif.Contract.Lemmas
import Verif.Contract.Props
import Verif.Contract.Props2
import Verif.Contract.Props3
import Verif.Contract.Props4
import Verif.Explicit.Model
import Verif.Explicit.Lemmas
import Verif.Explicit.Props
import Verif.Explicit.Props2
import Verif.Explicit.Props3
import Verif.Converge.Model
import Verif.Converge.Lemmas
import Verif.Converge.Props
import Verif.Converge.Props2
import Verif.Converge.Props3
import Verif.Converge.Props4
import Verif.Converge.Props5
import Verif.Converge.Props6
import Verif.Converge.Props7
import Verif.Imex.Model
import Verif.Imex.Lemmas
import Verif.Imex.Props
import Verif.Imex.Props2
import Verif.Imex.Props3
import Verif.Imex.Props4
import Verif.Leap.Model
import Verif.Leap.Props
import Verif.Ale.Model
import Verif.Ale.Lemmas
import Verif.Ale.Props
import Verif.Ale.Props2
import Verif.Ale.Props3
import Verif.Ale.Props4
import Verif.Still.Props
import Verif.Still.Props2
import Verif.Still.Props3
import Verif.Strong.Lemmas
import Verif.Strong.Props
import Verif.Strong.Props2
import Verif.Strong.Props3
import Verif.Frame.Model
import Verif.Frame.Lemmas
import Verif.Frame.Props
import Verif.Frame.Props2
import Verif.Frame.Props3
import Verif.Frame.Props4
import Verif.Frame.Props5
import Verif.Unit.Model
import Verif.Unit.Lemmas
import Verif.Unit.Props
import Verif.Unit.Props2
import Verif.Unit.Props3
import Verif.Unit.Props4
import Verif.Unit.Props5
import Verif.Tracer2.Props6
import Verif.Space.Model
import Verif.Space.Props
import Verif.Linear.Model
import Verif.Linear.Lemmas
import Verif.Linear.Props
import Verif.Linear.Props2
import Verif.Linear.Props3
import Verif.Linear.Props4
import Verif.Linear.Props5
import Verif.Local.Model
import Verif.Local.Lemmas
import Verif.Local.Props
import Verif.Local.Props2
import Verif.Local.Props3
import Verif.Local.Props4
import Verif.Local.Props5
import Verif.Solve.Lemmas
import Verif.Solve.Props
import Verif.Solve.Props2
import Verif.Solve.Props3
import Verif.Solve.Props4
import Verif.Surface.Model
import Verif.Surface.Props
import Verif.Surface.Props2
import Verif.Strong.Props4
import Verif.Accum.Model
import Verif.Accum.Props
import Verif.Accum.Props2
import Verif.Accum.Props3
import Verif.Reader.Model
import Verif.Reader.Props
import Verif.Project.Model
import Verif.Project.Props
import Verif.Vert.Model
import Verif.Vert.Props
import Verif.Daily.Model
import Verif.Daily.Props
import Verif.FieldDict.Model
import Verif.FieldDict.Props
import Verif.FieldDict.Props2
import Verif.Setdt.Model
import Verif.Setdt.Props
import Verif.Twin.Model
import Verif.Twin.Props
import Verif.Twin.Props2
import Verif.FieldOpt.Model
import Verif.FieldOpt.Props
import Verif.Directory.Model
import Verif.Directory.Props
import Verif.GradTest.Model
import Verif.GradTest.Props
