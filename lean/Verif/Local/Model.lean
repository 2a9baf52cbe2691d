import Verif.Dg.Model

/-!
Cells and their neighbours, for the domain of dependence.  Nothing here models code: the definitions say which values of a
field belong to a cell and which cells are next to each other.
-/

namespace Verif.Local

open Verif.Dg

variable {d : ℕ} {m : Mesh d} {κ : Type*}

/-- The cells next to `k`: the cell itself and those with a common facet.  `own` says to which cell a point belongs; a facet
point belongs to one cell on each side. -/
def near (own : Pt m → κ) (k : κ) : Set κ :=
  {j | j = k ∨ ∃ s, own (.plus s) = k ∧ own (.minus s) = j ∨ own (.minus s) = k ∧ own (.plus s) = j}

/-- Two scalar fields are the same in all cells of `A`. -/
def Same (own : Pt m → κ) (A : Set κ) (f g : Sc m) : Prop := ∀ x, own x ∈ A → f x = g x

/-- Two vector fields are the same in all cells of `A`. -/
def SameV (own : Pt m → κ) (A : Set κ) (u v : Vc m) : Prop := ∀ i, Same own A (u i) (v i)

/-- A test function of the cell `k`: zero in all other cells. -/
def Only (own : Pt m → κ) (k : κ) (w : Sc m) : Prop := ∀ x, own x ≠ k → w x = 0

/-- The cells at most `n` facets away. -/
def ball {κ : Type*} (nb : κ → Set κ) : ℕ → κ → Set κ
  | 0, k => {k}
  | n + 1, k => {j | ∃ i ∈ nb k, j ∈ ball nb n i}

end Verif.Local
