import Mathlib.Data.Matrix.Basic
import Mathlib.Data.Matrix.Mul
import Mathlib.Data.Real.Basic

/-!
Model of thetis/assembledschur.py.

Matrices are real matrices; PETSc's sparse storage, the sparsity hints and the option prefixes are left
out.  The inner solver is an arbitrary relation between operator, right hand side, result and converged
reason.
-/

namespace Verif.Schur

open Matrix

variable {m n : Type} [Fintype m] [Fintype n] [DecidableEq m] [DecidableEq n]

/-- The assembled blocks (0,1), (1,0) and (1,1) of the form at some moment,
assembledschur.py:41-44 and 54-59. -/
structure Blocks (m n : Type) where
  a01 : Matrix m n ℝ
  a10 : Matrix n m ℝ
  a11 : Matrix n n ℝ

/-- The members of `AssembledSchurPC`, assembledschur.py:36-39: the element-wise inverse of the mass
matrix, the product of lines 37 and 61, `schur`, `schur_plus` and the operator of the inner solver
(line 69). -/
structure PC (m n : Type) where
  a00inv : Matrix m m ℝ
  a10a00inv : Option (Matrix n m ℝ)
  schur : Option (Matrix n n ℝ)
  schurPlus : Option (Matrix n n ℝ)
  op : Option (Matrix n n ℝ)

/-- `Mat.aypx(a, X)` of PETSc: `Y` becomes `a*Y + X`. -/
def aypx (a : ℝ) (y x : Matrix n n ℝ) : Matrix n n ℝ := a • y + x

/-- `update`, assembledschur.py:53-69.  The stored products are only reused as storage by `matMult`
(lines 61-62), so their old values do not matter. -/
def update (p : PC m n) (b : Blocks m n) : PC m n :=
  let prod := b.a10 * p.a00inv
  let schur := prod * b.a01
  let plus := match p.schurPlus with
    | none => aypx (-1) schur b.a11
    | some _ => aypx (-1) schur b.a11
  ⟨p.a00inv, some prod, some schur, some plus, some plus⟩

/-- `initialize`, assembledschur.py:24-51; `massInv` is the assembled element-wise inverse of the mass
matrix of the (0,0) block (lines 33-36), whatever the (0,0) block of the form is. -/
def setup (massInv : Matrix m m ℝ) (b : Blocks m n) : PC m n :=
  update ⟨massInv, none, none, none, none⟩ b

/-- `apply`, assembledschur.py:71-75.  `solve op x` is the result of the inner solver with its converged
reason; `none` is the RuntimeError of line 75, or an application before the operator is set. -/
def apply (solve : Matrix n n ℝ → (n → ℝ) → (n → ℝ) × ℤ) (p : PC m n) (x : n → ℝ) : Option (n → ℝ) :=
  match p.op with
  | none => none
  | some s => if (solve s x).2 < 0 then none else some (solve s x).1

/-- The life of the preconditioner: `initialize` and then any number of updates with the blocks assembled
at the time. -/
def life (massInv : Matrix m m ℝ) (b : Blocks m n) (bs : List (Blocks m n)) : PC m n :=
  bs.foldl update (setup massInv b)

end Verif.Schur
