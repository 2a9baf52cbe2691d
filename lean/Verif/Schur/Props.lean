import Verif.Schur.Model
import Mathlib.LinearAlgebra.Matrix.NonsingularInverse
import Mathlib.Data.Matrix.Block
import Mathlib.Tactic.Abel
import Mathlib.Tactic.NoncommRing
import Mathlib.Tactic.FinCases
import Mathlib.Data.Fin.VecNotation
import Mathlib.Tactic.Linarith

/-!
C61: the Schur complement preconditioner.
-/

namespace Verif.Schur

open Matrix

variable {m n : Type} [Fintype m] [Fintype n] [DecidableEq m] [DecidableEq n]

omit [Fintype n] [DecidableEq m] [DecidableEq n] in
theorem life_inv (massInv : Matrix m m ℝ) (b : Blocks m n) (bs : List (Blocks m n)) :
    (life massInv b bs).a00inv = massInv := by
  unfold life
  induction bs using List.reverseRecOn with
  | nil => rfl
  | append_singleton bs c ih => rw [List.foldl_append]; exact ih

omit [Fintype n] [DecidableEq n] in
/-- C61: after any number of updates the inner solver works with `A11 - A10 inv(A00) A01` of the blocks
assembled last; it does not depend on earlier ones. -/
theorem C61_operator (A00 : Matrix m m ℝ) (b : Blocks m n)
    (bs : List (Blocks m n)) (c : Blocks m n) (hc : (b :: bs).getLast? = some c) :
    (life A00⁻¹ b bs).op = some (c.a11 - c.a10 * A00⁻¹ * c.a01) := by
  have key : ∀ (p : PC m n) (c : Blocks m n), p.a00inv = A00⁻¹ →
      (update p c).op = some (c.a11 - c.a10 * A00⁻¹ * c.a01) := by
    intro p c hp
    unfold update
    cases p.schurPlus <;> simp [aypx, hp] <;> abel
  rcases List.eq_nil_or_concat bs with rfl | ⟨l, d, rfl⟩
  · simp at hc
    subst hc
    exact key _ _ rfl
  · rw [List.concat_eq_append] at hc ⊢
    have : c = d := by
      rw [← List.cons_append, List.getLast?_append] at hc
      simpa using hc.symm
    subst this
    unfold life
    rw [List.foldl_append]
    exact key _ _ (life_inv A00⁻¹ b l)

/-- C61: with the whole (0,0) block equal to the matrix that is inverted, solving with the preconditioner
and substituting back solves the block system. -/
theorem C61_block_solve (A00 : Matrix m m ℝ) (h : IsUnit A00.det) (b : Blocks m n)
    (bs : List (Blocks m n)) (c : Blocks m n) (hc : (b :: bs).getLast? = some c)
    (solve : Matrix n n ℝ → (n → ℝ) → (n → ℝ) × ℤ)
    (hsolve : ∀ s x, 0 ≤ (solve s x).2 → s *ᵥ (solve s x).1 = x)
    (f : m → ℝ) (g : n → ℝ) (y : n → ℝ)
    (hy : apply solve (life A00⁻¹ b bs) (g - c.a10 *ᵥ (A00⁻¹ *ᵥ f)) = some y) :
    let x := A00⁻¹ *ᵥ (f - c.a01 *ᵥ y)
    A00 *ᵥ x + c.a01 *ᵥ y = f ∧ c.a10 *ᵥ x + c.a11 *ᵥ y = g := by
  intro x
  unfold apply at hy
  rw [C61_operator A00 b bs c hc] at hy
  simp only at hy
  split at hy
  · cases hy
  · next hr =>
    cases hy
    set s := c.a11 - c.a10 * A00⁻¹ * c.a01 with hs
    set r := g - c.a10 *ᵥ (A00⁻¹ *ᵥ f) with hrr
    set y := (solve s r).1 with hyy
    have h1 : s *ᵥ y = r := hsolve s r (not_lt.1 hr)
    constructor
    · change A00 *ᵥ (A00⁻¹ *ᵥ (f - c.a01 *ᵥ y)) + c.a01 *ᵥ y = f
      rw [mulVec_mulVec, mul_nonsing_inv A00 h, one_mulVec]
      abel
    · change c.a10 *ᵥ (A00⁻¹ *ᵥ (f - c.a01 *ᵥ y)) + c.a11 *ᵥ y = g
      rw [hs, sub_mulVec, hrr] at h1
      have h2 : (c.a10 * A00⁻¹ * c.a01) *ᵥ y = c.a10 *ᵥ (A00⁻¹ *ᵥ (c.a01 *ᵥ y)) := by
        rw [mulVec_mulVec, mulVec_mulVec]
      rw [h2] at h1
      rw [mulVec_sub, mulVec_sub]
      have h3 := eq_add_of_sub_eq h1
      rw [h3]
      abel

/-- C61: the complement of an invertible system is invertible, so an exact inner solver has exactly one
answer. -/
theorem C61_invertible (A00 : Matrix m m ℝ) (h : IsUnit A00.det) (c : Blocks m n)
    (hb : IsUnit (fromBlocks A00 c.a01 c.a10 c.a11).det) (y z : n → ℝ)
    (hyz : (c.a11 - c.a10 * A00⁻¹ * c.a01) *ᵥ y = (c.a11 - c.a10 * A00⁻¹ * c.a01) *ᵥ z) : y = z := by
  set s := c.a11 - c.a10 * A00⁻¹ * c.a01 with hs
  have hd : s *ᵥ (y - z) = 0 := by rw [mulVec_sub, hyz, sub_self]
  have hk : fromBlocks A00 c.a01 c.a10 c.a11 *ᵥ
      Sum.elim (-(A00⁻¹ *ᵥ (c.a01 *ᵥ (y - z)))) (y - z) = 0 := by
    rw [fromBlocks_mulVec]
    funext i
    cases i with
    | inl i =>
      have : A00 *ᵥ (-(A00⁻¹ *ᵥ (c.a01 *ᵥ (y - z)))) + c.a01 *ᵥ (y - z) = 0 := by
        rw [mulVec_neg, mulVec_mulVec, mul_nonsing_inv A00 h, one_mulVec]; abel
      simpa using congrFun this i
    | inr i =>
      have : c.a10 *ᵥ (-(A00⁻¹ *ᵥ (c.a01 *ᵥ (y - z)))) + c.a11 *ᵥ (y - z) = 0 := by
        rw [mulVec_neg, ← hd, hs, sub_mulVec]
        have h2 : (c.a10 * A00⁻¹ * c.a01) *ᵥ (y - z) =
            c.a10 *ᵥ (A00⁻¹ *ᵥ (c.a01 *ᵥ (y - z))) := by
          rw [mulVec_mulVec, mulVec_mulVec]
        rw [h2]; abel
      simpa using congrFun this i
  have h0 : Sum.elim (-(A00⁻¹ *ᵥ (c.a01 *ᵥ (y - z)))) (y - z) = 0 := by
    have := congrArg (fun v => (fromBlocks A00 c.a01 c.a10 c.a11)⁻¹ *ᵥ v) hk
    simpa [mulVec_mulVec, nonsing_inv_mul _ hb] using this
  have : y - z = 0 := by
    funext j
    simpa using congrFun h0 (.inr j)
  exact sub_eq_zero.1 this

omit [Fintype m] [Fintype n] [DecidableEq m] [DecidableEq n] in
/-- C61: the preconditioner reports an inner solve that did not converge and gives no result. -/
theorem C61_reports (solve : Matrix n n ℝ → (n → ℝ) → (n → ℝ) × ℤ) (p : PC m n) (s : Matrix n n ℝ)
    (hs : p.op = some s) (x : n → ℝ) :
    ((solve s x).2 < 0 → apply solve p x = none) ∧
      (0 ≤ (solve s x).2 → apply solve p x = some (solve s x).1) := by
  unfold apply
  rw [hs]
  exact ⟨fun h => by simp [h], fun h => by simp [not_lt.2 h]⟩

/-- C61: the matrix that is inverted is the mass matrix, not the (0,0) block of the form.  If the block
has another part (a drag term, here a block 2 with mass 1), the operator is not the Schur complement and
solving with it and substituting back does not solve the system. -/
theorem C61_mass_only_violated :
    ∃ (A00 mass : Matrix (Fin 1) (Fin 1) ℝ) (b : Blocks (Fin 1) (Fin 1)),
      IsUnit A00.det ∧ IsUnit mass.det ∧
      (setup mass⁻¹ b).op = some !![-1] ∧ b.a11 - b.a10 * A00⁻¹ * b.a01 = !![-(1/2)] ∧
      (∀ y : Fin 1 → ℝ, (!![-1] : Matrix (Fin 1) (Fin 1) ℝ) *ᵥ y = ![1] - b.a10 *ᵥ (mass⁻¹ *ᵥ ![0]) →
        b.a10 *ᵥ (A00⁻¹ *ᵥ (![0] - b.a01 *ᵥ y)) + b.a11 *ᵥ y ≠ ![1]) := by
  have h2 : (!![2] : Matrix (Fin 1) (Fin 1) ℝ)⁻¹ = !![1/2] := by
    apply inv_eq_right_inv
    ext i j
    fin_cases i; fin_cases j
    simp [Matrix.mul_apply]
  have h1 : (!![1] : Matrix (Fin 1) (Fin 1) ℝ)⁻¹ = !![1] := by
    apply inv_eq_right_inv
    ext i j
    fin_cases i; fin_cases j
    simp [Matrix.mul_apply]
  refine ⟨!![2], !![1], ⟨!![1], !![1], !![0]⟩, ?_, ?_, ?_, ?_, ?_⟩
  · simp
  · simp
  · simp only [setup, update, aypx, h1]
    congr 1
    ext i j
    fin_cases i; fin_cases j
    simp [Matrix.mul_apply]
  · rw [h2]
    ext i j
    fin_cases i; fin_cases j
    simp [Matrix.mul_apply]
  · intro y hy hcon
    rw [h1] at hy
    rw [h2] at hcon
    have e1 := congrFun hy 0
    have e2 := congrFun hcon 0
    simp [Matrix.mulVec, dotProduct] at e1 e2
    linarith

/-- Blocks used as an example: `A00 = 2`, complement `-1/2`. -/
example : ∃ y : Fin 1 → ℝ, apply (fun s x => (s⁻¹ *ᵥ x, 2))
    (life (!![2] : Matrix (Fin 1) (Fin 1) ℝ)⁻¹ ⟨!![1], !![1], !![0]⟩ []) (![1]) = some y :=
  ⟨_, rfl⟩

example : IsUnit (!![2] : Matrix (Fin 1) (Fin 1) ℝ).det := by simp

end Verif.Schur
