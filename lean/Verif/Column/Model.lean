import Verif.Ext.Model

/-!
Model of the vertical integrals of thetis/utility3d.py and of the baroclinic head, in the setting of `Verif.Ext`.  A
form is the number it takes for one test function.  Vectors are integrated by components (utility3d.py:189-194).
-/

namespace Verif.Column

open Verif.Dg Verif.Ext

variable {e : Mesh3}

/-- Options of `VerticalIntegrator`, utility3d.py:137-139.  `dg` is `vertical_is_dg`. -/
structure Opts where
  up : Bool := true
  dg : Bool

/-- `up_value`, utility3d.py:184-187. -/
def upValue (o : Opts) (u : Sc e.m) (s : e.m.S) : ℝ :=
  if o.up then (u (.plus s)).v else (u (.minus s)).v

/-- The bilinear form, utility3d.py:176-194. -/
def left (o : Opts) (u phi : Sc e.m) : ℝ :=
  let bnd : e.m.B → ℝ := fun b => e.m.nb b 2 * ((u (.bnd b)).v * (phi (.bnd b)).v)
  let mass := if o.up then e.dsurf bnd else e.dbottom bnd
  let a := -(e.m.dx fun x => (phi (.cell x)).g 2 * (u (.cell x)).v) + mass
  a + if o.dg then e.dSh fun s => upValue o u s * jumpN phi s 2 else 0

/-- The right-hand side, utility3d.py:176-181 and 199; `src` is `source`. -/
def right (o : Opts) (src bndValue phi : Sc e.m) : ℝ :=
  let bnd : e.m.B → ℝ := fun b => e.m.nb b 2 * ((bndValue (.bnd b)).v * (phi (.bnd b)).v)
  (e.m.dx fun x => (src (.cell x)).v * (phi (.cell x)).v) + if o.up then e.dbottom bnd else e.dsurf bnd

/-- `source`, utility3d.py:195-198, at the points of the cells.  `avg` gives elevation and bathymetry if `average` is
set. -/
noncomputable def source (input : Sc e.m) (avg : Option (Sc e.m × Sc e.m)) (x : e.m.C) : ℝ :=
  match avg with
  | some (elev, bath) => (input (.cell x)).v / ((elev (.cell x)).v + (bath (.cell x)).v)
  | none => (input (.cell x)).v

/-- `baroc_head_3d *= -rho0_inv` after `rho_integrator`, utility.py:487-490. -/
noncomputable def head (rho0inv : ℝ) (integral : Sc e.m) : Sc e.m := cst e.m (-rho0inv) * integral

end Verif.Column
