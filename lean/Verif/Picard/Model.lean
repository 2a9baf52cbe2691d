import Mathlib.Algebra.Module.Basic
import Mathlib.Data.Real.Basic

/-!
Model of `PressureProjectionPicard` and `SteadyState` (timeintegrator.py:255-464), and of how `CrankNicolson` and
`ForwardEuler` store forcings (timeintegrator.py:88-112).

Simplifications: `U` and `E` are the velocity and elevation spaces; residuals, which are linear in the test function, are
represented by the element of the space whose inner product with the test function they are; the solvers solve exactly.
Coefficients of the forms come in two groups: fields that are `Function`s (`F`), of which `fields_old` keeps a copy, and
`Constant`s and boundary conditions (`C`), of which it does not.
-/

namespace Verif.Picard

variable {U E F C W : Type} [AddCommGroup U] [Module ℝ U] [AddCommGroup E] [Module ℝ E] [AddCommGroup W]

/-- Labels of terms, equation.py. -/
inductive Label | implicit | explicit | source
deriving DecidableEq

/-- A term of an equation: its label and `residual(uv, eta, uv_old, eta_old, fields, fields, bnd_conditions)`. -/
structure Term (U E F C W : Type) where
  label : Label
  f : U → E → U → E → F → C → W

/-- Sum over the terms with a label, shallowwater_eq.py:886-890. -/
def only (lb : Label) (l : List (Term U E F C W)) (u : U) (e : E) (u' : U) (e' : E) (fn : F) (c : C) : W :=
  ((l.filter fun t => t.label = lb).map fun t => t.f u e u' e' fn c).sum

/-- Sum over all terms, label `all`. -/
def all (l : List (Term U E F C W)) (u : U) (e : E) (u' : U) (e' : E) (fn : F) (c : C) : W :=
  (l.map fun t => t.f u e u' e' fn c).sum

/-- `ShallowWaterEquations`, shallowwater_eq.py:893-930: momentum terms, continuity terms and the term the mass term of the
elevation has in addition, `wd_bathymetry_displacement`. -/
structure Eqs (U E F C : Type) where
  mom : List (Term U E F C U)
  cont : List (Term U E F C E)
  disp : E → E

/-- What stays the same during one step: equations, theta, time step, linearisation, the coefficients after
`update_forcings`, those of `fields_old`, and `solution_old`. -/
structure Ctx (U E F C : Type) where
  eqs : Eqs U E F C
  theta : ℝ
  dt : ℝ
  semi : Bool
  fn : F
  c : C
  fnOld : F
  uOld : U
  eOld : E

variable (x : Ctx U E F C)

/-- `F_mom`, timeintegrator.py:391-397, with the fields of lines 375-387. -/
def momForm (uLag : U) (eLag : E) (us : U) : U :=
  us - x.uOld - x.dt • (
    x.theta • all x.eqs.mom us eLag (if x.semi then uLag else us) eLag x.fn x.c
      + (1 - x.theta) • all x.eqs.mom x.uOld x.eOld x.uOld x.eOld x.fnOld x.c)

/-- Velocity part of `F`, timeintegrator.py:404-420. -/
def waveU (uLag : U) (eLag : E) (us u : U) (e : E) : U :=
  u - us
    - x.dt • (x.theta • only .implicit x.eqs.mom u e (if x.semi then uLag else u) (if x.semi then eLag else e) x.fn x.c
      + (1 - x.theta) • only .implicit x.eqs.mom x.uOld x.eOld x.uOld x.eOld x.fnOld x.c)
    + -x.dt • (-(x.theta • only .implicit x.eqs.mom us eLag (if x.semi then uLag else us) eLag x.fn x.c)
      - (1 - x.theta) • only .implicit x.eqs.mom x.uOld x.eOld x.uOld x.eOld x.fnOld x.c)

/-- Elevation part of `F`, timeintegrator.py:404-412: the mass term of the new solution has the displacement,
`mass_term_star` has not. -/
def waveE (uLag : U) (eLag : E) (u : U) (e : E) : E :=
  e + x.eqs.disp e - x.eOld
    - x.dt • (x.theta • only .implicit x.eqs.cont u e (if x.semi then uLag else u) (if x.semi then eLag else e) x.fn x.c
      + (1 - x.theta) • only .implicit x.eqs.cont x.uOld x.eOld x.uOld x.eOld x.fnOld x.c)

/-- One iteration, timeintegrator.py:457-462, from the lagged solution to the new one. -/
def Iter (lag new : U × E) : Prop :=
  ∃ us, momForm x lag.1 lag.2 us = 0 ∧ waveU x lag.1 lag.2 us new.1 new.2 = 0 ∧ waveE x lag.1 lag.2 new.1 new.2 = 0

/-- The loop, timeintegrator.py:456-462; with one iteration the lagged solution is `solution_old`, lines 350-354. -/
def Iters : ℕ → U × E → U × E → Prop
  | 0, s, s' => s' = s
  | n + 1, s, s' => ∃ t, Iter x s t ∧ Iters n t s'

/-- `advance`, timeintegrator.py:450-464. -/
def Advance (n : ℕ) (s' : U × E) : Prop := Iters x n (x.uOld, x.eOld) s'

/-! ### Options -/

/-- PETSc options, flattened. -/
abbrev Params := List (String × String)

/-- `PressureProjectionSWETimeStepperOptions2d`, options.py:92-137: the part on solvers. -/
structure Opts where
  params : Params
  pressure : Params
  momentum : Params
  semi : Bool

/-- `dict.setdefault`. -/
def setdefault (k v : String) (p : Params) : Params := if (p.lookup k).isSome then p else p ++ [(k, v)]

/-- What the momentum solver and the pressure solver are given, timeintegrator.py:68, 331-347 and 425-440; the options for
`pressure` are read in line 331 for the check of lines 358-370 only. -/
def solverParams (o : Opts) : Params × Params :=
  let snes := if o.semi then "ksponly" else "newtonls"
  let p := setdefault "snes_type" snes o.params
  let m := setdefault "snes_type" snes o.momentum
  (m, if p.lookup "pc_type" = some "lu" then ("mat_type", "aij") :: p.filter (fun kv => kv.1 ≠ "mat_type") else p)

/-! ### Forcings of two-level schemes -/

/-- `CrankNicolson`: the form, timeintegrator.py:208-211, for a residual `R u u_nl fields constants`. -/
def cnForm (theta dt : ℝ) (semi : Bool) (R : U → U → F → C → U) (fn : F) (c : C) (fnOld : F) (old u : U) : U :=
  u - old - dt • (theta • R u (if semi then old else u) fn c + (1 - theta) • R old old fnOld c)

/-- `n` steps of `CrankNicolson.advance`, timeintegrator.py:235-241, from `u0` at time zero: `update_forcings` sets fields and
constants to their values at the new time; `us k` is the solution after `k` steps. -/
def CnRun (theta dt : ℝ) (semi : Bool) (R : U → U → F → C → U) (fn : ℝ → F) (c : ℝ → C) (us : ℕ → U) : Prop :=
  ∀ k : ℕ, cnForm theta dt semi R (fn ((k + 1) * dt)) (c ((k + 1) * dt)) (fn (k * dt)) (us k) (us (k + 1)) = 0

/-- `n` steps of `ForwardEuler.advance`, timeintegrator.py:138-142 and 159-165. -/
def FeRun (dt : ℝ) (R : U → U → F → C → U) (fn : ℝ → F) (c : ℝ → C) (us : ℕ → U) : Prop :=
  ∀ k : ℕ, us (k + 1) = us k + dt • R (us k) (us k) (fn (k * dt)) (c ((k + 1) * dt))

/-- `SteadyState`, timeintegrator.py:276 and 298-303, at time `t`. -/
def Steady (R : U → U → F → C → U) (fn : ℝ → F) (c : ℝ → C) (t dt : ℝ) (u : U) : Prop :=
  R u u (fn (t + dt)) (c (t + dt)) = 0

end Verif.Picard
