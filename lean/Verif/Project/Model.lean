import Mathlib.Data.Real.Basic
import Mathlib.Data.Fintype.BigOperators
import Mathlib.LinearAlgebra.Dual.Lemmas
import Mathlib.LinearAlgebra.FiniteDimensional.Basic

/-!
Model of `SubdomainProjector` (thetis/utility.py:543-582): the projection of the restriction of an
expression to a part of the mesh.

A function is its values at the quadrature points of the cells, an integral is the sum that firedrake
assembles, a function space is the set of values that its functions can have.  Left out: the type check of
lines 548-549, the parameters of the linear solver (its result is taken to solve the equation), and the
use of one factorisation for a mesh that moves (`constant_jacobian`).
-/

namespace Verif.Project

open Finset

/-- Quadrature points `P` of the cells, with weights, the cell of each point and the subdomain id that
the mesh gives to each cell; functions have `n` components. -/
structure Mesh (n : ℕ) where
  P : Type
  [fin : Fintype P]
  Cell : Type
  w : P → ℝ
  cell : P → Cell
  id : Cell → ℕ

attribute [instance] Mesh.fin

variable {n : ℕ}

/-- Values of a function at all points. -/
abbrev Fn (M : Mesh n) : Type := M.P → Fin n → ℝ

open Classical in
/-- `inner(p, v)*dx(subdomain_id)`: the sum over the points of the cells with one of the given ids. -/
noncomputable def innerDx (M : Mesh n) (ids : Set ℕ) (p v : Fn M) : ℝ :=
  ∑ q : M.P, if M.id (M.cell q) ∈ ids then M.w q * ∑ k, p q k * v q k else 0

/-- The left hand side `a` of utility.py:559, `dx` is the whole mesh. -/
noncomputable def lhs (M : Mesh n) (p q : Fn M) : ℝ := innerDx M Set.univ p q

/-- The right hand side `L` of utility.py:560. -/
noncomputable def rhs (M : Mesh n) (ids : Set ℕ) (v p : Fn M) : ℝ := innerDx M ids p v

/-- The result of `project()`, utility.py:575-580: a function of the space of `v_out` that solves the
variational problem of lines 562-563 for every test function of this space. -/
def Projects (M : Mesh n) (V : Submodule ℝ (Fn M)) (ids : Set ℕ) (v out : Fn M) : Prop :=
  out ∈ V ∧ ∀ p ∈ V, lhs M p out = rhs M ids v p

end Verif.Project
