import Verif.Ext.Model

/-!
Model of `SmagorinskyViscosity` of thetis/utility3d.py, in the setting of `Verif.Ext`.
-/

namespace Verif.Smag

open Verif.Dg Verif.Ext

variable {e : Mesh3}

/-- The right-hand side of the weak gradient for one component `u` of the velocity, the direction `ix` and a test
function, utility3d.py:954-962. -/
noncomputable def gradRight (u : Sc e.m) (ix : Fin 3) (phi : Sc e.m) : ℝ :=
  -(e.m.dx fun x => (phi (.cell x)).g ix * (u (.cell x)).v) +
    (e.dSv fun s => avg u s * jumpN phi s ix) +
    ∑ b, e.m.wB b * if e.face b = .side then (u (.bnd b)).v * ((phi (.bnd b)).v * e.m.nb b ix) else 0

/-- `grad` solves the weak problem for one test function, utility3d.py:952-963; `ix` is 0 or 1. -/
def WeakGrad (u : Sc e.m) (ix : Fin 3) (grad phi : Sc e.m) : Prop :=
  (e.m.dx fun x => (grad (.cell x)).v * (phi (.cell x)).v) = gradRight u ix phi

/-- The velocity gradient at a point: `uv_grad`, by rows, utility3d.py:957. -/
structure Grad where
  ux : ℝ
  uy : ℝ
  vx : ℝ
  vy : ℝ

/-- `d_t`, utility3d.py:967. -/
def Grad.dt (g : Grad) : ℝ := g.ux - g.vy

/-- `d_s`, utility3d.py:968. -/
def Grad.ds (g : Grad) : ℝ := g.uy + g.vx

/-- `nu`, utility3d.py:978. -/
noncomputable def nu (cs h : ℝ) (g : Grad) : ℝ := cs ^ 2 * h ^ 2 * Real.sqrt (g.dt ^ 2 + g.ds ^ 2)

/-- The clipping at the nodes after the projection, utility3d.py:991-997. -/
noncomputable def clip (minVal maxVal x : ℝ) : ℝ :=
  let x := if x < minVal then minVal else x
  if maxVal < x then maxVal else x

/-- `max_h_diff` at a node, solver.py:862-864; `degree` is that of the tracer space in the horizontal. -/
noncomputable def maxHDiff (degree : ℕ) (dt h : ℝ) : ℝ :=
  1 / 60 / max ((degree : ℝ) * (degree + 1)) 1 / dt * h ^ 2

/-- The velocity from which the solver computes the viscosity: `uv_3d`, which holds the deviation from the depth average
after `_update_2d_coupling`, solver.py:832 and coupled_timeintegrator.py:540-560, 683-705. -/
def seen (total depthAv : Sc e.m) : Sc e.m := fun x => total x - depthAv x

end Verif.Smag
