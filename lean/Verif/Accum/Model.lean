import Verif.Explicit.Model

/-!
Model of time steps whose systems are not solved exactly: an iterative solver stops when the residual is below a tolerance.
The model of the steps is that of `Contract/Model.lean` and `Explicit/Model.lean`, with a bound on the residual in place of zero.

The residual is measured as a functional on the test functions, against the size of the function that the test function
weighs.  PETSc measures the vector of its values for the basis functions; in a given function space one bound follows from
the other, up to a constant of the space.  Rounding in a step is an error of the same kind.
-/

namespace Verif.Accum

open Verif.Contract Verif.Explicit

variable {V : Type*} [AddCommGroup V] [Module ℝ V]

/-- The size of a function: the square root of its energy. -/
noncomputable def size (E : Eqn V) (W : V → V) (x : V) : ℝ := Real.sqrt (E.mass x (W x))

/-- A step of `CrankNicolson`, timeintegrator.py:196-212 and 235-241, where `self.solver.solve()` (timeintegrator.py:240) leaves a
residual of at most `tol`; `E0` and `W` give the size of functions. -/
def InexactTheta (E Eold E0 : Eqn V) (W : V → V) (dt theta : ℝ) (semi : Bool) (H : Submodule ℝ V) (tol : ℝ) (old new : V) :
    Prop :=
  new ∈ H ∧ ∀ y ∈ H, |E.mass new (W y) - E.mass old (W y) -
    dt * (theta * E.res new (if semi then old else new) (W y) + (1 - theta) * Eold.res old old (W y))| ≤ tol * size E0 W y

/-- A solve for a tendency, rungekutta.py:900-904 and 921, that leaves a residual of at most `tol`. -/
def InexactTendency (E E0 : Eqn V) (W : V → V) (dt : ℝ) (H : Submodule ℝ V) (tol : ℝ) (u k : V) : Prop :=
  k ∈ H ∧ ∀ y ∈ H, |E.mass k (W y) - dt * E.res u u (W y)| ≤ tol * size E0 W y

/-- A step of `ERKGenericShuOsher` (`Explicit.ShuOsherStep`) with such solves. -/
def InexactShuOsher (E E0 : Eqn V) (W : V → V) (C : RK.ShuOsher) (n : ℕ) (dt : ℝ) (H : Submodule ℝ V) (tol : ℝ) (old new : V) :
    Prop :=
  ∃ s k : ℕ → V, s 0 = old ∧ (∀ i < n, InexactTendency E E0 W dt H tol (s i) (k i) ∧
    s (i + 1) = C.β (i + 1) i • k i + ∑ j ∈ Finset.range (i + 1), C.α (i + 1) j • s j) ∧ new = s n

/-- A step of `SSPRK33` (`Explicit.Ssprk33Step`) with such solves. -/
def InexactSsprk33 (E E0 : Eqn V) (W : V → V) (dt : ℝ) (H : Submodule ℝ V) (tol : ℝ) (old new : V) : Prop :=
  ∃ C, RK.toShuOsher RK.ssprk33 = some C ∧ InexactShuOsher E E0 W C RK.ssprk33.n dt H tol old new

/-- A step that ends within `eps` of a result of the step `P`. -/
def Near (E : Eqn V) (W : V → V) (P : V → V → Prop) (eps : ℝ) (old new : V) : Prop :=
  ∃ y, P old y ∧ size E W (new - y) ≤ eps

end Verif.Accum
