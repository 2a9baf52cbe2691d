import Verif.Mom3.Model
import Verif.Contract.Model

/-!
The implicit vertical step of the momentum equation of the 3D model: the equation `vertmomentum`, solver.py:684-694, with the fields of
coupled_timeintegrator.py:219-236, advanced by `BackwardEuler`, coupled_timeintegrator.py:551 and 698.
-/

namespace Verif.Vert

open Verif.Dg Verif.Ext Verif.Contract

variable {e : Mesh3}

/-- `inner(solution, test)*dx` of two velocities, equation.py:99-105. -/
def ipVel (a b : Vc e.m) : ℝ := ∑ i, ip (a i) (b i)

/-- `MomentumEquation` as an equation for the time integrators, momentum_eq.py:571-609: all terms at one residual. -/
noncomputable def mom3 (T : Mom3.Term e) (F : Mom3.Fields e) (bc : ℕ → Option (Mom3.BFuncs e)) : Eqn (Vc e.m) where
  mass := ipVel
  inner := ipVel
  res u v w := Mom3.residual T F bc u v w

/-- `friction_fields`, coupled_timeintegrator.py:219-224. -/
structure Friction (e : Mesh3) where
  linDrag : Option (Sc e.m) := none
  drag : Option (Sc e.m) := none
  wind : Option (Vc e.m) := none
  roughness : Option (Sc e.m) := none

/-- The fields of `mom_impl`, coupled_timeintegrator.py:231-232: the keys of `friction_fields` and `viscosity_v`.  The elevation and
the factor of Lax and Friedrichs, which the model asks for, are read by no term of this equation. -/
noncomputable def implFields (mu : Option (Sc e.m)) (P : Friction e) : Mom3.Fields e where
  eta := cst e.m 0
  lfFactor := 0
  viscV := mu
  linDrag := P.linDrag
  drag := P.drag
  wind := P.wind
  roughness := P.roughness

/-- `vertmomentum`, solver.py:685-694: `use_nonlinear_equations=False`, the other arguments are those of `momentum` and
`use_bottom_friction`. -/
def vertTerm (T : Mom3.Term e) (friction : Bool) : Mom3.Term e := { T with nonlinear := false, friction := friction }

/-- `mom_impl`, coupled_timeintegrator.py:233-235. -/
noncomputable def momImpl (T : Mom3.Term e) (friction : Bool) (mu : Option (Sc e.m)) (P : Friction e)
    (bc : ℕ → Option (Mom3.BFuncs e)) : Eqn (Vc e.m) :=
  mom3 (vertTerm T friction) (implFields mu P) bc

/-- `mom_impl.advance`, rungekutta.py:714-716 and 555-577. -/
def Step (T : Mom3.Term e) (friction : Bool) (mu : Option (Sc e.m)) (P : Friction e) (bc : ℕ → Option (Mom3.BFuncs e)) (dt : ℝ)
    (semi : Bool) (H : Submodule ℝ (Vc e.m)) (old new : Vc e.m) : Prop :=
  TendencyStep (fun _ => momImpl T friction mu P bc) RK.backwardEuler dt semi H old new

/-- The step within the coupled integrators, coupled_timeintegrator.py:550-552 and 697-699: the depth average is added before and taken
away after it. -/
def SplitStep (T : Mom3.Term e) (friction : Bool) (mu : Option (Sc e.m)) (P : Friction e) (bc : ℕ → Option (Mom3.BFuncs e)) (dt : ℝ)
    (semi : Bool) (H : Submodule ℝ (Vc e.m)) (dav dev dev' : Vc e.m) : Prop :=
  ∃ new, Step T friction mu P bc dt semi H (dev + dav) new ∧ dev' = new - dav

end Verif.Vert
