import Verif.RK.Model
import Verif.Swe.Model
import Verif.Tracer2.Model
import Verif.Tracer3.Model
import Mathlib.Algebra.Module.Submodule.Basic
import Mathlib.Algebra.Module.Prod
import Mathlib.Algebra.Module.Pi

/-!
Model of one step of the implicit time integrators in weak form: `CrankNicolson` (timeintegrator.py:168-252),
`DIRKGenericUForm` (rungekutta.py:580-711, behind the options `BackwardEuler`, `DIRK22` and `DIRK33` of solver2d.py:667-669) and
`DIRKGeneric` (rungekutta.py:438-577, behind the 2D mode and the vertical solves of the three-dimensional model,
coupled_timeintegrator.py:409-411 and 571-573).

Functions are elements of a real vector space `V` with the function space `H` as a subspace.  A form is the number it takes
for one test function.  A step is the relation between the functions before and after it: the solvers are taken to find a
zero of the form, whichever there are.  For the equations below, which are linear in the unknown, Newton's method and one linear solve
have the same zeros.  Rounding and solver tolerances are left out.
-/

namespace Verif.Contract

open Finset Verif.Dg Verif.Ext

section Step

variable {V : Type*} [AddCommGroup V] [Module ℝ V]

/-- An `Equation` with its fields and boundary conditions: `mass` is `mass_term`, equation.py:99-105, `inner` is
`inner(k, test)*dx` of rungekutta.py:501 and 640, and `res u v w` is `residual('all', u, v, …)`, equation.py:155-176, for the
test function `w`, where `v` is the function around which coefficients are evaluated. -/
structure Eqn (V : Type*) where
  mass : V → V → ℝ
  inner : V → V → ℝ
  res : V → V → V → ℝ

/-- One step of `CrankNicolson`, timeintegrator.py:196-212 and 235-241: `E` has the fields at the new and `Eold` at the old
time; `theta` is `implicitness_theta`. -/
def ThetaStep (E Eold : Eqn V) (dt theta : ℝ) (semi : Bool) (H : Submodule ℝ V) (old new : V) : Prop :=
  new ∈ H ∧ ∀ w ∈ H,
    E.mass new w - E.mass old w -
      dt * (theta * E.res new (if semi then old else new) w + (1 - theta) * Eold.res old old w) = 0

/-- The function `u` of stage `i`, rungekutta.py:498-502. -/
def stageValue (T : RK.Tableau) (dt : ℝ) (old : V) (k : ℕ → V) (i : ℕ) : V :=
  old + ∑ j ∈ range (i + 1), (T.a i j * dt) • k j

/-- `u_nl` while stage `i` is solved, rungekutta.py:484-490: `solution_old`, or the function `solution`, which holds the
stage before. -/
def stageLin (T : RK.Tableau) (dt : ℝ) (semi : Bool) (old : V) (k : ℕ → V) (i : ℕ) : V :=
  if semi then old else if i = 0 then old else stageValue T dt old k (i - 1)

/-- One step of `DIRKGeneric`, rungekutta.py:495-516 and 555-577: the tendencies `k` solve the stages in order, and the
solution is `final_sol_expr`, rungekutta.py:524.  The fields of stage `i` are those of `E i`. -/
def TendencyStep (E : ℕ → Eqn V) (T : RK.Tableau) (dt : ℝ) (semi : Bool) (H : Submodule ℝ V) (old new : V) : Prop :=
  ∃ k : ℕ → V, (∀ i < T.n, k i ∈ H ∧ ∀ w ∈ H,
      -(E i).inner (k i) w + (E i).res (stageValue T dt old k i) (stageLin T dt semi old k i) w = 0) ∧
    new = old + ∑ j ∈ range T.n, (dt * T.b j) • k j

/-- One step of `DIRKGenericUForm`, rungekutta.py:634-649 and 696-711: stage `i` ends at `u i`, and for all stages but the
last a tendency `k i` is computed.  The solution of the last stage is the new solution. -/
def UStep (E : ℕ → Eqn V) (T : RK.Tableau) (dt : ℝ) (semi : Bool) (H : Submodule ℝ V) (old new : V) : Prop :=
  ∃ u k : ℕ → V, (∀ i < T.n, u i ∈ H ∧ ∀ w ∈ H,
      (E i).mass (u i) w - (E i).mass old w - (dt * T.a i i * (E i).res (u i) (if semi then old else u i) w +
        ∑ j ∈ range i, dt * T.a i j * (E i).inner (k j) w) = 0) ∧
    (∀ i < T.n - 1, k i ∈ H ∧ ∀ w ∈ H,
      dt * T.a i i * (E i).inner (k i) w - ((E i).mass (u i) w - (E i).mass old w) +
        ∑ j ∈ range i, dt * T.a i j * (E i).inner (k j) w = 0) ∧
    new = u (T.n - 1)

end Step

/-! ### The vector space of expressions -/

/-- Jets add componentwise. -/
instance {d : ℕ} : AddCommGroup (Jet d) where
  add_assoc a b c := by ext <;> apply add_assoc
  zero_add a := by ext <;> apply zero_add
  add_zero a := by ext <;> apply add_zero
  neg_add_cancel a := by ext <;> apply neg_add_cancel
  add_comm a b := by ext <;> apply add_comm
  sub_eq_add_neg a b := by ext <;> apply sub_eq_add_neg
  nsmul := nsmulRec
  zsmul := zsmulRec

/-- A number times a jet. -/
instance {d : ℕ} : Module ℝ (Jet d) where
  smul x a := ⟨x * a.v, fun i => x * a.g i⟩
  one_smul a := by ext <;> apply one_mul
  mul_smul x y a := by ext <;> apply mul_assoc
  smul_zero x := by ext <;> apply mul_zero
  smul_add x a b := by ext <;> apply mul_add
  add_smul x y a := by ext <;> apply add_mul
  zero_smul a := by ext <;> apply zero_mul

/-- The inner product of two expressions, `inner(a, b)*dx`. -/
def ip {d : ℕ} {m : Mesh d} (a b : Sc m) : ℝ := m.dx fun x => (a (.cell x)).v * (b (.cell x)).v

/-! ### The equations -/

/-- `solution` of the shallow water equations: velocity and elevation. -/
abbrev State (m : Mesh 2) := Vc m × Sc m

/-- `inner(k, test)*dx` in the mixed space. -/
def ipState {m : Mesh 2} (a b : State m) : ℝ := (∑ i, ip (a.1 i) (b.1 i)) + ip a.2 b.2

/-- `ShallowWaterEquations`, shallowwater_eq.py:893-928: the residual for a pair of test functions is the sum of both parts;
`mass_term` has the displacement of the bed in addition, shallowwater_eq.py:917-920. -/
noncomputable def swe {m : Mesh 2} (T : Swe.Term m) (K : Swe.Coeffs m) (bc : ℕ → Option (Swe.Funcs m)) : Eqn (State m) where
  mass u w := (∑ i, ip (u.1 i) (w.1 i)) + Swe.massEta T u.2 w.2
  inner := ipState
  res u v w := Swe.momentum T K bc u.1 u.2 v.1 v.2 w.1 + Swe.continuity T K bc u.1 u.2 v.1 v.2 w.2

/-- `TracerEquation2D` without sources and in the form that is not conservative, tracer_eq_2d.py:480-483: no term reads the function `v`. -/
noncomputable def tracer2 {m : Mesh 2} (T : Tracer2.Term m) (F : Tracer2.Flow m) (mu : Option (Sc m))
    (bc : ℕ → Option (Tracer2.BFuncs m)) : Eqn (Sc m) where
  mass := ip
  inner := ip
  res c _ w := Tracer2.advection T F bc c w + Tracer2.diffusion T F mu bc c w

/-- `ModeSplit2DEquations`, shallowwater_eq.py:931-966, the two-dimensional mode of the three-dimensional model: pressure
gradient, Coriolis force, sources and the divergence of the flow. -/
noncomputable def modeSplit {m : Mesh 2} (T : Swe.Term m) (K : Swe.Coeffs m) (bc : ℕ → Option (Swe.Funcs m)) :
    Eqn (State m) where
  mass := ipState
  inner := ipState
  res u v w := Swe.pressure T bc u.1 u.2 v.2 w.1 + Swe.coriolis K.coriolis u.1 w.1 + Swe.momentumSource K.source w.1 +
    Swe.atmPressure T K.pressure w.1 + Swe.continuity T K bc u.1 u.2 v.1 v.2 w.2

/-- `TracerEquation` of the three-dimensional model, tracer_eq.py:380-411; its implicit solve gets no velocity, source or
horizontal diffusivity, coupled_timeintegrator.py:258-264. -/
noncomputable def tracer3 {e : Mesh3} (T : Tracer3.Term e) (F : Tracer3.Fields e) (bc : ℕ → Option (Tracer3.BFuncs e)) :
    Eqn (Sc e.m) where
  mass := ip
  inner := ip
  res c _ w := Tracer3.residual T F bc c w

end Verif.Contract
