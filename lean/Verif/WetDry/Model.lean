import Verif.Swe.Model
import Mathlib.Analysis.Calculus.Deriv.Basic

/-!
Model of the elevation part of implicit time integrators of the two-dimensional solver (solver2d.py:662-672) for the shallow
water equations: `CrankNicolson` (timeintegrator.py:168-252) and `DIRKGenericUForm` (rungekutta.py:580-713), which is behind
`BackwardEuler`, `DIRK22` and `DIRK33`.  The mass term `Verif.Swe.massEta` includes the displacement of the bed by wetting
and drying and is not linear in the elevation; which solver is used decides what happens to it.

Simplifications: velocities are part of the state, but the equations for them are left out, as every statement is about the
water volume.  Linear systems are solved exactly and Newton's method converges.
-/

namespace Verif.WetDry

open Verif.Dg Verif.Swe

variable {m : Mesh 2}

/-- `solution`: velocity and elevation. -/
abbrev State (m : Mesh 2) := Vc m × Sc m

/-- The values of the PETSc option `snes_type` that occur: Newton's method, and one linear solve. -/
inductive Snes | newtonls | ksponly
deriving DecidableEq

/-- `solver_parameters.setdefault('snes_type', …)`, timeintegrator.py:187-190 and rungekutta.py:600-603: the option of the
user, or by `use_semi_implicit_linearization`. -/
def snesType (semi : Bool) (user : Option Snes) : Snes := user.getD (if semi then .ksponly else .newtonls)

/-- The state `x + t d`. -/
def line (x d : State m) (t : ℝ) : State m :=
  (fun i p => x.1 i p + Jet.const t * d.1 i p, fun p => x.2 p + Jet.const t * d.2 p)

/-- `NonlinearVariationalSolver.solve` for a form `F` and test functions in `H`, from the guess `x`: with `newtonls` the form
vanishes at the solution `y`; with `ksponly` its linearisation at the guess, with UFL's `derivative`, does. -/
def Solves (s : Snes) (H : Set (Sc m)) (F : State m → Sc m → ℝ) (x y : State m) : Prop :=
  match s with
  | .newtonls => ∀ phi ∈ H, F y phi = 0
  | .ksponly => ∃ d, y = line x d 1 ∧ ∀ phi ∈ H, F x phi + deriv (fun t => F (line x d t) phi) 0 = 0

/-- What a step uses: the terms, their coefficients at the new and the old time, boundary conditions, time step, and
`use_semi_implicit_linearization`. -/
structure Setup (m : Mesh 2) where
  T : Term m
  K : Coeffs m
  Kold : Coeffs m
  bc : ℕ → Option (Funcs m)
  dt : ℝ
  semi : Bool

/-- `equation.residual('all', u, u_nl, …)`, elevation part; `u_nl` is the old solution if linearised,
timeintegrator.py:196-202 and rungekutta.py:624-630. -/
noncomputable def Setup.res (S : Setup m) (old u : State m) (phi : Sc m) : ℝ :=
  continuity S.T S.K S.bc u.1 u.2 (if S.semi then old.1 else u.1) (if S.semi then old.2 else u.2) phi

/-- `F` of `CrankNicolson`, timeintegrator.py:209-212. -/
noncomputable def cnForm (S : Setup m) (theta : ℝ) (old u : State m) (phi : Sc m) : ℝ :=
  massEta S.T u.2 phi - massEta S.T old.2 phi
    - S.dt * (theta * S.res old u phi + (1 - theta) * continuity S.T S.Kold S.bc old.1 old.2 old.1 old.2 phi)

/-- `CrankNicolson.advance`, timeintegrator.py:235-241; the guess is the old solution. -/
def CnStep (S : Setup m) (theta : ℝ) (user : Option Snes) (H : Set (Sc m)) (old new : State m) : Prop :=
  Solves (snesType S.semi user) H (cnForm S theta old) old new

/-- `F[i]` of `DIRKGenericUForm`, rungekutta.py:635-641. -/
noncomputable def stageForm (S : Setup m) (a : ℕ → ℕ → ℝ) (old : State m) (k : ℕ → Sc m) (i : ℕ) (u : State m) (phi : Sc m) :
    ℝ :=
  let mass := massEta S.T u.2 phi - massEta S.T old.2 phi
  let rhs := S.dt * a i i * S.res old u phi
  let rhs := rhs + ∑ j ∈ Finset.range i, S.dt * a i j * m.dx fun x => (k j (.cell x)).v * (phi (.cell x)).v
  mass - rhs

/-- `k_form[i]`, rungekutta.py:645-649, for the solution `u` of the stage. -/
noncomputable def tendencyForm (S : Setup m) (a : ℕ → ℕ → ℝ) (old u : State m) (k : ℕ → Sc m) (i : ℕ) (phi : Sc m) : ℝ :=
  S.dt * a i i * (m.dx fun x => (k i (.cell x)).v * (phi (.cell x)).v) - (massEta S.T u.2 phi - massEta S.T old.2 phi) +
    ∑ j ∈ Finset.range i, S.dt * a i j * m.dx fun x => (k j (.cell x)).v * (phi (.cell x)).v

/-- One step of `DIRKGenericUForm` with `n + 1` stages, rungekutta.py:696-711: stage `i` starts from the solution of the
stage before and ends at `u i`; the tendency is computed for all stages but the last.  The forcings of stage `i` are those
of `S i`. -/
def UStep (S : ℕ → Setup m) (a : ℕ → ℕ → ℝ) (user : Option Snes) (H : Set (Sc m)) (n : ℕ) (old : State m)
    (u : ℕ → State m) (k : ℕ → Sc m) : Prop :=
  (∀ i ≤ n, Solves (snesType (S i).semi user) H (stageForm (S i) a old k i) (if i = 0 then old else u (i - 1)) (u i)) ∧
  ∀ i < n, ∀ phi ∈ H, tendencyForm (S i) a old (u i) k i phi = 0

end Verif.WetDry
