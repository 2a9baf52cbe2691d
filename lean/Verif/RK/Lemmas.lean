import Verif.RK.Model
import Mathlib.LinearAlgebra.Matrix.Block
import Mathlib.LinearAlgebra.Matrix.Notation
import Mathlib.Tactic.FinCases
import Mathlib.Tactic.IntervalCases
import Mathlib.Tactic.NormNum
import Mathlib.Tactic.Positivity
import Mathlib.Tactic.FieldSimp
import Mathlib.Tactic.LinearCombination
import Mathlib.Tactic.Ring
import Mathlib.Tactic.Linarith
import Mathlib.Tactic.Abel
import Mathlib.Tactic.Module

/-!
Helper lemmas for the Runge-Kutta properties.
-/

namespace Verif.RK

open Finset

section

variable {V : Type*} [AddCommGroup V] [Module ℝ V]

/-! ### Explicit schemes -/

/-- After `m` stages of the Butcher form the stored tendencies satisfy the stage equations. -/
theorem erk_loop (T : Tableau) (dt : ℝ) (F : ℕ → V → V) (s : Erk V) (m : ℕ) :
    (loop (Erk.stage T dt F) m s).old = s.old ∧
    ∀ j < m, (loop (Erk.stage T dt F) m s).k j =
      dt • F j (s.old + ∑ l ∈ range j, T.a j l • (loop (Erk.stage T dt F) m s).k l) := by
  induction m with
  | zero => exact ⟨rfl, fun j hj => absurd hj (Nat.not_lt_zero j)⟩
  | succ m ih =>
    obtain ⟨h1, h2⟩ := ih
    set L := loop (Erk.stage T dt F) m s with hL
    have hst : loop (Erk.stage T dt F) (m + 1) s = Erk.stage T dt F m L := rfl
    rw [hst]
    have hk : ∀ l < m, (Erk.stage T dt F m L).k l = L.k l := by
      intro l hl
      simp [Erk.stage, Erk.solveTendency, Erk.updateSolution, Function.update_of_ne hl.ne]
    have hsum : ∀ j ≤ m, ∑ l ∈ range j, T.a j l • (Erk.stage T dt F m L).k l =
        ∑ l ∈ range j, T.a j l • L.k l := by
      intro j hj
      refine Finset.sum_congr rfl fun l hl => ?_
      rw [hk l (lt_of_lt_of_le (Finset.mem_range.1 hl) hj)]
    refine ⟨by simp [Erk.stage, Erk.solveTendency, Erk.updateSolution, h1], ?_⟩
    intro j hj
    rcases Nat.lt_succ_iff_lt_or_eq.1 hj with hj | rfl
    · rw [hk j hj, hsum j hj.le]; exact h2 j hj
    · rw [hsum j le_rfl]
      by_cases h0 : 0 < j
      · simp [Erk.stage, Erk.solveTendency, Erk.updateSolution, h0, h1]
      · have : j = 0 := by omega
        subst this
        simp [Erk.stage, Erk.solveTendency, Erk.updateSolution, h1]

/-- What the conversion must satisfy for the two forms to agree. -/
structure Consistent (T : Tableau) (C : ShuOsher) : Prop where
  rowSum : ∀ i < T.n, ∑ m ∈ range (i + 1), C.α (i + 1) m = 1
  match_ : ∀ i < T.n, ∀ l < T.n,
    (if l = i then C.β (i + 1) i else 0) + ∑ m ∈ range (i + 1), C.α (i + 1) m * T.butcher m l
      = T.butcher (i + 1) l

theorem sho_loop (T : Tableau) (C : ShuOsher) (hC : Consistent T C)
    (hT : ∀ i < T.n, ∀ j < T.n, i ≤ j → T.a i j = 0)
    (dt : ℝ) (F : ℕ → V → V) (K : ℕ → V) (s : Sho V)
    (hK : ∀ j < T.n, K j = dt • F j (s.sol + ∑ l ∈ range T.n, T.a j l • K l)) (m : ℕ)
    (hm : m ≤ T.n) :
    (m < T.n ∨ 0 < m →
      (loop (Sho.stage T.n C dt F) m s).sol = s.sol + ∑ l ∈ range T.n, T.butcher m l • K l) ∧
    (0 < m → ∀ j ≤ m, j < T.n →
      (loop (Sho.stage T.n C dt F) m s).stageSol j
        = s.sol + ∑ l ∈ range T.n, T.butcher j l • K l) := by
  have hB : ∀ j < T.n, T.butcher j = T.a j := fun j hj => by funext l; simp [Tableau.butcher, hj]
  induction m with
  | zero =>
    refine ⟨fun h => ?_, fun h => absurd h (lt_irrefl 0)⟩
    have hn : 0 < T.n := by omega
    have : ∑ l ∈ range T.n, T.butcher 0 l • K l = 0 := by
      refine Finset.sum_eq_zero fun l hl => ?_
      rw [hB 0 hn, hT 0 hn l (Finset.mem_range.1 hl) (Nat.zero_le _), zero_smul]
    rw [this, add_zero]; rfl
  | succ i ih =>
    have hi : i < T.n := by omega
    obtain ⟨h1, h2⟩ := ih hi.le
    have h1 := h1 (Or.inl hi)
    set L := loop (Sho.stage T.n C dt F) i s with hL
    have hst : loop (Sho.stage T.n C dt F) (i + 1) s = Sho.stage T.n C dt F i L := rfl
    rw [hst]
    -- the stage values used by stage `i`
    set st := (if i = 0 then Function.update L.stageSol 0 L.sol else L.stageSol) with hstdef
    have hstv : ∀ j ≤ i, st j = s.sol + ∑ l ∈ range T.n, T.butcher j l • K l := by
      intro j hj
      by_cases h0 : i = 0
      · have : j = 0 := by omega
        subst this
        subst h0
        simp only [hstdef, if_true, Function.update_self]
        exact h1
      · simp only [hstdef, if_neg h0]
        exact h2 (by omega) j hj (by omega)
    have htend : dt • F i L.sol = K i := by
      rw [h1, hB i hi]; exact (hK i hi).symm
    have hsol : (Sho.stage T.n C dt F i L).sol
        = s.sol + ∑ l ∈ range T.n, T.butcher (i + 1) l • K l := by
      have e1 : (Sho.stage T.n C dt F i L).sol
          = C.β (i + 1) i • K i + ∑ j ∈ range (i + 1), C.α (i + 1) j • st j := by
        simp only [Sho.stage]; rw [htend]
      rw [e1]
      have e2 : ∑ j ∈ range (i + 1), C.α (i + 1) j • st j
          = s.sol + ∑ l ∈ range T.n,
              (∑ m ∈ range (i + 1), C.α (i + 1) m * T.butcher m l) • K l := by
        have : ∀ j ∈ range (i + 1), C.α (i + 1) j • st j
            = C.α (i + 1) j • s.sol
              + ∑ l ∈ range T.n, (C.α (i + 1) j * T.butcher j l) • K l := by
          intro j hj
          rw [hstv j (by have := Finset.mem_range.1 hj; omega), smul_add, Finset.smul_sum]
          simp only [smul_smul]
        rw [Finset.sum_congr rfl this, Finset.sum_add_distrib, ← Finset.sum_smul, hC.rowSum i hi,
          one_smul, Finset.sum_comm]
        simp only [Finset.sum_smul]
      have e3 : C.β (i + 1) i • K i
          = ∑ l ∈ range T.n, (if l = i then C.β (i + 1) i else 0) • K l := by
        rw [Finset.sum_eq_single i]
        · simp
        · intro l _ hl; simp [hl]
        · intro h; exact absurd (Finset.mem_range.2 hi) h
      rw [e2, e3, add_left_comm, ← Finset.sum_add_distrib]
      congr 1
      refine Finset.sum_congr rfl fun l hl => ?_
      rw [← add_smul, hC.match_ i hi l (Finset.mem_range.1 hl)]
    refine ⟨fun _ => hsol, fun _ j hj hjn => ?_⟩
    by_cases hlast : i + 1 < T.n
    · rcases Nat.lt_or_ge j (i + 1) with h | h
      · have : (Sho.stage T.n C dt F i L).stageSol j = st j := by
          simp [Sho.stage, hlast, Function.update_of_ne h.ne, hstdef]
        rw [this]; exact hstv j (by omega)
      · have hje : j = i + 1 := by omega
        subst hje
        have : (Sho.stage T.n C dt F i L).stageSol (i + 1) = (Sho.stage T.n C dt F i L).sol := by
          simp [Sho.stage, hlast]
        rw [this, hsol]
    · have hj' : j ≤ i := by omega
      have : (Sho.stage T.n C dt F i L).stageSol j = st j := by
        simp [Sho.stage, hlast, hstdef]
      rw [this]; exact hstv j hj'

end

/-! ### The conversion -/

theorem chop_eq {x : ℝ} (h : x = 0 ∨ 1 / 10 ^ 13 ≤ |x|) : chop x = x := by
  unfold chop
  rcases h with h | h
  · subst h; simp
  · rw [if_neg (not_lt.2 h)]

/-- Lower triangular matrices with invertible determinant have a lower triangular inverse, whose
diagonal consists of the reciprocals. -/
theorem lower_inv {n : ℕ} (A : Matrix (Fin n) (Fin n) ℝ) (hdet : A.det ≠ 0)
    (hA : ∀ i j, i < j → A i j = 0) :
    (∀ i j, i < j → A⁻¹ i j = 0) ∧ ∀ i, A i i * A⁻¹ i i = 1 := by
  have hu : IsUnit A.det := isUnit_iff_ne_zero.2 hdet
  have : Invertible A := A.invertibleOfIsUnitDet hu
  have hbt : A.BlockTriangular OrderDual.toDual := by
    intro i j hij
    exact hA i j (OrderDual.toDual_lt_toDual.1 hij)
  have hinv := Matrix.blockTriangular_inv_of_blockTriangular hbt
  have h1 : ∀ i j, i < j → A⁻¹ i j = 0 := fun i j hij => hinv (OrderDual.toDual_lt_toDual.2 hij)
  refine ⟨h1, fun i => ?_⟩
  have := congrFun (congrFun (Matrix.mul_nonsing_inv A hu) i) i
  rw [Matrix.mul_apply, Matrix.one_apply_eq, Finset.sum_eq_single i] at this
  · exact this
  · intro j _ hj
    rcases lt_or_gt_of_ne hj with h | h
    · rw [h1 j i h, mul_zero]
    · rw [hA i j h, zero_mul]
  · intro h; exact absurd (Finset.mem_univ i) h

/-- `I - diag(A) A⁻¹` is strictly lower triangular. -/
theorem al_strict {n : ℕ} (A : Matrix (Fin n) (Fin n) ℝ) (hdet : A.det ≠ 0)
    (hA : ∀ i j, i < j → A i j = 0) (i j : Fin n) (hij : i ≤ j) :
    ((1 : Matrix (Fin n) (Fin n) ℝ) - Matrix.diagonal (fun i => A i i) * A⁻¹) i j = 0 := by
  obtain ⟨h1, h2⟩ := lower_inv A hdet hA
  rw [Matrix.sub_apply, Matrix.diagonal_mul]
  rcases eq_or_lt_of_le hij with rfl | h
  · rw [Matrix.one_apply_eq, h2]; ring
  · rw [Matrix.one_apply_ne h.ne, h1 i j h]; ring

/-- `(I - diag(A) A⁻¹) A = A - diag(A)`. -/
theorem al_mul {n : ℕ} (A : Matrix (Fin n) (Fin n) ℝ) (hdet : A.det ≠ 0) :
    ((1 : Matrix (Fin n) (Fin n) ℝ) - Matrix.diagonal (fun i => A i i) * A⁻¹) * A
      = A - Matrix.diagonal (fun i => A i i) := by
  rw [sub_mul, one_mul, mul_assoc, Matrix.nonsing_inv_mul A (isUnit_iff_ne_zero.2 hdet), mul_one]

theorem at0_fin {n : ℕ} (A : Matrix (Fin n) (Fin n) ℝ) (i j : Fin n) : at0 A i j = A i j := by
  simp [at0]

theorem at0_lt {n : ℕ} (A : Matrix (Fin n) (Fin n) ℝ) {i j : ℕ} (hi : i < n) (hj : j < n) :
    at0 A i j = A ⟨i, hi⟩ ⟨j, hj⟩ := by
  simp [at0, hi, hj]

theorem sum_range_fin {n : ℕ} (f : ℕ → ℝ) : ∑ j ∈ range n, f j = ∑ j : Fin n, f j :=
  (Fin.sum_univ_eq_sum_range f n).symm

/-- The converted coefficients of an explicit tableau are consistent with it. -/
theorem toShuOsher_consistent (T : Tableau)
    (hT : ∀ i < T.n, ∀ j < T.n, i ≤ j → T.a i j = 0) (hdet : T.aa.det ≠ 0) :
    Consistent T ⟨T.alpha, T.beta⟩ := by
  have hlow : ∀ i j : Fin T.n, i < j → T.aa i j = 0 := by
    intro i j hij
    have hi : (i : ℕ) + 1 < T.n := lt_of_le_of_lt (Nat.succ_le_of_lt hij) j.2
    simp only [Tableau.aa, Matrix.of_apply, Tableau.butcher, hi, if_true]
    exact hT _ hi _ j.2 (Nat.succ_le_of_lt hij)
  have hstrict : ∀ i j : Fin T.n, i ≤ j → T.al0 i j = 0 := al_strict T.aa hdet hlow
  have hat : ∀ i j : ℕ, i ≤ j → at0 T.al0 i j = 0 := by
    intro i j hij
    by_cases h : i < T.n ∧ j < T.n
    · rw [at0_lt _ h.1 h.2]; exact hstrict _ _ hij
    · simp [at0, h]
  have hsplit : ∀ i < T.n, ∀ f : ℕ → ℝ,
      ∑ m ∈ range T.n, at0 T.al0 i m * f m = ∑ m ∈ range i, at0 T.al0 i m * f m := by
    intro i hi f
    symm
    refine Finset.sum_subset (Finset.range_subset_range.2 hi.le) fun m _ hm => ?_
    rw [hat i m (by simpa using hm), zero_mul]
  constructor
  · intro i hi
    rw [Finset.sum_range_succ']
    simp only [Tableau.alpha]
    have := hsplit i hi (fun _ => 1)
    simp only [mul_one] at this
    rw [this]; ring
  · intro i hi l hl
    rw [Finset.sum_range_succ']
    have h0 : T.butcher 0 l = 0 := by
      have hn : 0 < T.n := by omega
      simp only [Tableau.butcher, hn, if_true]; exact hT 0 hn l hl (Nat.zero_le _)
    rw [h0, mul_zero, add_zero]
    simp only [Tableau.alpha]
    have hs := hsplit i hi (fun m => T.butcher (m + 1) l)
    rw [← hs]
    have key := congrFun (congrFun (al_mul T.aa hdet) ⟨i, hi⟩) ⟨l, hl⟩
    rw [Matrix.mul_apply] at key
    have e1 : ∑ m ∈ range T.n, at0 T.al0 i m * T.butcher (m + 1) l
        = T.aa ⟨i, hi⟩ ⟨l, hl⟩ - T.be0 ⟨i, hi⟩ ⟨l, hl⟩ := by
      rw [sum_range_fin (fun m => at0 T.al0 i m * T.butcher (m + 1) l)]
      have : ∀ m : Fin T.n, at0 T.al0 i m * T.butcher (m + 1) l
          = T.al0 ⟨i, hi⟩ m * T.aa m ⟨l, hl⟩ := by
        intro m
        rw [at0_lt _ hi m.2]; simp [Tableau.aa]
      rw [Finset.sum_congr rfl fun m _ => this m]
      exact key
    rw [e1]
    have e2 : (if l = i then T.beta (i + 1) i else 0) = T.be0 ⟨i, hi⟩ ⟨l, hl⟩ := by
      simp only [Tableau.beta, at0_lt _ hi hi, Tableau.be0]
      by_cases h : l = i
      · subst h; simp
      · rw [if_neg h, Matrix.diagonal_apply_ne]
        intro hh; exact h (Fin.mk.inj_iff.1 hh).symm
    rw [e2]
    have e3 : T.aa ⟨i, hi⟩ ⟨l, hl⟩ = T.butcher (i + 1) l := by simp [Tableau.aa]
    rw [e3]; ring

/-! ### Implicit schemes -/

section

variable {V : Type*} [AddCommGroup V] [Module ℝ V]

/-- The value of the solution function when stage `i` of `DIRKGeneric` starts. -/
def dirkStart (T : Tableau) (dt : ℝ) (u : V) (K : ℕ → V) (i : ℕ) : V :=
  if i = 0 then u else u + ∑ j ∈ range i, (dt * T.a (i - 1) j) • K j

theorem dirkStart_congr (T : Tableau) (dt : ℝ) (u : V) {K K' : ℕ → V} {i : ℕ}
    (h : ∀ j < i, K j = K' j) : dirkStart T dt u K i = dirkStart T dt u K' i := by
  unfold dirkStart
  split
  · rfl
  · congr 1
    refine Finset.sum_congr rfl fun j hj => ?_
    rw [h j (Finset.mem_range.1 hj)]

theorem sum_congr_k {c : ℕ → ℝ} {K K' : ℕ → V} {i : ℕ} (h : ∀ j < i, K j = K' j) :
    ∑ j ∈ range i, c j • K j = ∑ j ∈ range i, c j • K' j :=
  Finset.sum_congr rfl fun j hj => by rw [h j (Finset.mem_range.1 hj)]

/-- Unique solvability of the stage equations. -/
def StagesSolvable (T : Tableau) (dt : ℝ) (R : ℕ → V → V → V) : Prop :=
  ∀ i < T.n, ∀ w v : V, ∃! k, -k + R i (w + (T.a i i * dt) • k) v = 0

theorem dirk_loop (T : Tableau) (dt : ℝ) (semi : Bool) (R : ℕ → V → V → V) (root : (V → V) → V)
    (hroot : RootFinder root) (hs : StagesSolvable T dt R) (s : Dirk V) (m : ℕ) (hm : m ≤ T.n) :
    (0 < m → (loop (Dirk.stage T dt semi R root) m s).old = s.sol) ∧
    (loop (Dirk.stage T dt semi R root) m s).sol
      = dirkStart T dt s.sol (loop (Dirk.stage T dt semi R root) m s).k m ∧
    ∀ j < m, (loop (Dirk.stage T dt semi R root) m s).k j =
      R j (s.sol + ∑ l ∈ range (j + 1), (dt * T.a j l) • (loop (Dirk.stage T dt semi R root) m s).k l)
        (if semi then s.sol else
          dirkStart T dt s.sol (loop (Dirk.stage T dt semi R root) m s).k j) := by
  induction m with
  | zero =>
    exact ⟨fun h => absurd h (lt_irrefl 0), by simp [loop, dirkStart],
      fun j hj => absurd hj (Nat.not_lt_zero j)⟩
  | succ m ih =>
    have hmn : m < T.n := hm
    obtain ⟨h1, h2, h3⟩ := ih hmn.le
    set L := loop (Dirk.stage T dt semi R root) m s with hL
    have hst : loop (Dirk.stage T dt semi R root) (m + 1) s = Dirk.stage T dt semi R root m L := rfl
    rw [hst]
    set N := Dirk.stage T dt semi R root m L with hN
    have hold : (if m = 0 then L.sol else L.old) = s.sol := by
      by_cases h0 : m = 0
      · rw [if_pos h0, h2]; simp [dirkStart, h0]
      · rw [if_neg h0]; exact h1 (Nat.pos_of_ne_zero h0)
    have hNold : N.old = s.sol := by
      simp only [hN, Dirk.stage, Dirk.updateSolution, Dirk.solveTendency]; exact hold
    have hk : ∀ l < m, N.k l = L.k l := by
      intro l hl
      simp [hN, Dirk.stage, Dirk.updateSolution, Dirk.solveTendency, Function.update_of_ne hl.ne]
    have hNsol : N.sol = s.sol + ∑ j ∈ range (m + 1), (dt * T.a m j) • N.k j := by
      conv_rhs => rw [← hNold]
      rfl
    refine ⟨fun _ => hNold, ?_, ?_⟩
    · rw [hNsol]; simp [dirkStart]
    · intro j hj
      rcases Nat.lt_succ_iff_lt_or_eq.1 hj with hj | rfl
      · rw [hk j hj, sum_congr_k (K' := L.k) (fun l hl => hk l (by omega)),
          dirkStart_congr T dt s.sol (K' := L.k) (fun l hl => hk l (by omega))]
        exact h3 j hj
      · have hNk : N.k j = root fun k =>
            -k + R j (s.sol + ∑ l ∈ range j, (T.a j l * dt) • L.k l + (T.a j j * dt) • k)
              (if semi then s.sol else L.sol) := by
          simp only [hN, Dirk.stage, Dirk.updateSolution, Dirk.solveTendency, Function.update_self]
          rw [hold]
        have hz := hroot _ (hs j hmn (s.sol + ∑ l ∈ range j, (T.a j l * dt) • L.k l)
          (if semi then s.sol else L.sol))
        rw [← hNk] at hz
        have e : N.k j = R j (s.sol + ∑ l ∈ range j, (T.a j l * dt) • L.k l
            + (T.a j j * dt) • N.k j) (if semi then s.sol else L.sol) := by
          rw [neg_add_eq_zero] at hz; exact hz
        rw [Finset.sum_range_succ, sum_congr_k (K' := L.k) (fun l hl => hk l hl), ← add_assoc,
          dirkStart_congr T dt s.sol (K' := L.k) (fun l hl => hk l hl), ← h2]
        simp only [mul_comm dt]
        exact e

/-- One step of `DIRKGeneric`: the stage equations and the final combination. -/
theorem dirk_spec (T : Tableau) (hn : 0 < T.n) (dt : ℝ) (semi : Bool) (R : ℕ → V → V → V)
    (root : (V → V) → V) (hroot : RootFinder root) (hs : StagesSolvable T dt R) (s : Dirk V) :
    ∃ K : ℕ → V,
      (∀ j < T.n, K j = R j (s.sol + ∑ l ∈ range (j + 1), (dt * T.a j l) • K l)
        (if semi then s.sol else dirkStart T dt s.sol K j)) ∧
      (s.advance T dt semi R root).sol = s.sol + ∑ j ∈ range T.n, (dt * T.b j) • K j := by
  obtain ⟨h1, _, h3⟩ := dirk_loop T dt semi R root hroot hs s T.n le_rfl
  refine ⟨_, h3, ?_⟩
  simp only [Dirk.advance, Dirk.getFinal]
  rw [h1 hn]

/-- The tendency form and the solution form run in lock step. -/
theorem uform_loop (T : Tableau) (dt : ℝ) (semi : Bool) (R : ℕ → V → V → V) (root : (V → V) → V)
    (hroot : RootFinder root) (hs : StagesSolvable T dt R)
    (hdt : dt ≠ 0) (hdiag : ∀ i < T.n, T.a i i ≠ 0)
    (hlin : semi = true ∨ ∀ i u v w, R i u v = R i u w)
    (s s' : Dirk V) (hss : s.sol = s'.sol) (m : ℕ) (hm : m ≤ T.n) :
    (0 < m → (loop (Dirk.stageU T dt semi R root) m s').old = s.sol) ∧
    (loop (Dirk.stageU T dt semi R root) m s').sol = (loop (Dirk.stage T dt semi R root) m s).sol ∧
    ∀ j < m, j < T.n - 1 → (loop (Dirk.stageU T dt semi R root) m s').k j
      = (loop (Dirk.stage T dt semi R root) m s).k j := by
  induction m with
  | zero => exact ⟨fun h => absurd h (lt_irrefl 0), hss.symm, fun j hj => absurd hj (Nat.not_lt_zero j)⟩
  | succ m ih =>
    have hmn : m < T.n := hm
    obtain ⟨g1, g2, g3⟩ := ih hmn.le
    obtain ⟨d1, d2, -⟩ := dirk_loop T dt semi R root hroot hs s m hmn.le
    obtain ⟨e1, e2, e3⟩ := dirk_loop T dt semi R root hroot hs s (m + 1) hm
    have hstU : loop (Dirk.stageU T dt semi R root) (m + 1) s'
      = Dirk.stageU T dt semi R root m (loop (Dirk.stageU T dt semi R root) m s') := rfl
    have hkd : ∀ l < m, (loop (Dirk.stage T dt semi R root) (m + 1) s).k l
        = (loop (Dirk.stage T dt semi R root) m s).k l := by
      intro l hl
      simp [loop, Dirk.stage, Dirk.updateSolution, Dirk.solveTendency, Function.update_of_ne hl.ne]
    set U := loop (Dirk.stageU T dt semi R root) m s' with hU
    set D := loop (Dirk.stage T dt semi R root) m s with hD
    set D' := loop (Dirk.stage T dt semi R root) (m + 1) s with hD'
    rw [hstU]
    have hold : (if m = 0 then U.sol else U.old) = s.sol := by
      by_cases h0 : m = 0
      · rw [if_pos h0, g2, d2]; simp [dirkStart, h0]
      · rw [if_neg h0]; exact g1 (Nat.pos_of_ne_zero h0)
    have hc : dt * T.a m m ≠ 0 := mul_ne_zero hdt (hdiag m hmn)
    have hc' : T.a m m * dt ≠ 0 := mul_ne_zero (hdiag m hmn) hdt
    -- stage sums agree
    have hsum : ∑ j ∈ range m, (dt * T.a m j) • U.k j = ∑ j ∈ range m, (dt * T.a m j) • D'.k j := by
      refine sum_congr_k (fun l hl => ?_)
      rw [g3 l hl (by omega), hkd l hl]
    set S := ∑ j ∈ range m, (dt * T.a m j) • D'.k j with hS
    -- effective right-hand side
    have hR : ∀ u v, R m u (if semi then s.sol else v) = R m u s.sol := by
      intro u v
      rcases hlin with h | h
      · simp [h]
      · exact h m u _ _
    -- D' satisfies its stage equation
    have hDk : D'.k m = R m D'.sol s.sol := by
      have := e3 m (Nat.lt_succ_self m)
      rw [hR] at this
      rw [this, e2]
      simp [dirkStart]
    have hDsol : D'.sol = s.sol + S + (dt * T.a m m) • D'.k m := by
      rw [e2]; simp only [dirkStart, Nat.succ_ne_zero, if_false, Nat.add_sub_cancel]
      rw [Finset.sum_range_succ, ← hS, add_assoc]
    -- uniqueness of the stage value
    obtain ⟨k₀, -, hk₀⟩ := hs m hmn (s.sol + S) s.sol
    have huniq : ∀ u, (u - s.sol) - ((dt * T.a m m) • R m u s.sol + S) = 0 → u = D'.sol := by
      intro u hu
      have hu' : u = s.sol + S + (T.a m m * dt) • R m u s.sol := by
        rw [sub_eq_zero] at hu
        rw [mul_comm (T.a m m)]
        calc u = (dt * T.a m m) • R m u s.sol + S + s.sol := eq_add_of_sub_eq hu
          _ = _ := by abel
      have h1 : R m u s.sol = k₀ := hk₀ _ (by simp only; rw [← hu']; simp)
      have h2 : D'.k m = k₀ := hk₀ _ (by
        simp only; rw [mul_comm (T.a m m), ← hDsol, ← hDk]; simp)
      rw [hu', h1, ← h2, hDsol, mul_comm (T.a m m)]
    have hex : ∃! u, (u - s.sol) - ((dt * T.a m m) • R m u s.sol + S) = 0 := by
      refine ⟨D'.sol, ?_, fun u hu => huniq u hu⟩
      simp only
      rw [← hDk]
      nth_rewrite 1 [hDsol]
      abel
    have hUsol : (Dirk.stageU T dt semi R root m U).sol = D'.sol := by
      refine huniq _ ?_
      have hfun : (Dirk.stageU T dt semi R root m U).sol
          = root fun u => (u - s.sol) - ((dt * T.a m m) • R m u s.sol + S) := by
        simp only [Dirk.stageU]
        rw [hold, hsum]
        congr 1
        funext u
        rw [hR]
      rw [hfun]
      exact hroot _ hex
    refine ⟨fun _ => by simp only [Dirk.stageU]; exact hold, hUsol, ?_⟩
    intro j hj hjn
    rcases Nat.lt_succ_iff_lt_or_eq.1 hj with hj | rfl
    · have : (Dirk.stageU T dt semi R root m U).k j = U.k j := by
        simp only [Dirk.stageU]
        split
        · rw [Function.update_of_ne hj.ne]
        · rfl
      rw [this, g3 j hj hjn, hkd j hj]
    · have hkU : (Dirk.stageU T dt semi R root j U).k j
          = root fun k => (dt * T.a j j) • k - (D'.sol - s.sol) + S := by
        have h0 : (Dirk.stageU T dt semi R root j U).k j
            = root fun k => (dt * T.a j j) • k
                - ((Dirk.stageU T dt semi R root j U).sol - (if j = 0 then U.sol else U.old))
                + ∑ l ∈ range j, (dt * T.a j l) • U.k l := by
          simp only [Dirk.stageU, hjn, if_true, Function.update_self]
        rw [h0, hUsol, hold, hsum]
      have hkex : ∀ k, (dt * T.a j j) • k - (D'.sol - s.sol) + S = 0 ↔ k = D'.k j := by
        intro k
        rw [hDsol]
        have : (dt * T.a j j) • k - (s.sol + S + (dt * T.a j j) • D'.k j - s.sol) + S
            = (dt * T.a j j) • (k - D'.k j) := by rw [smul_sub]; abel
        rw [this, smul_eq_zero, or_iff_right hc, sub_eq_zero]
      rw [hkU]
      exact (hkex _).1 (hroot _ ⟨D'.k j, (hkex _).2 rfl, fun k hk => (hkex k).1 hk⟩)

/-! ### Implicit-explicit schemes -/

/-- Stage value of the additive method from stored tendencies (the explicit ones include `dt`). -/
def imexU (TE TI : Tableau) (dt : ℝ) (u : V) (ke kd : ℕ → V) (i : ℕ) : V :=
  u + ∑ l ∈ range i, TE.a i l • ke l + ∑ l ∈ range (i + 1), (dt * TI.a i l) • kd l

theorem imexU_congr (TE TI : Tableau) (dt : ℝ) (u : V) {ke ke' kd kd' : ℕ → V} {i : ℕ}
    (he : ∀ l < i, ke l = ke' l) (hd : ∀ l < i + 1, kd l = kd' l) :
    imexU TE TI dt u ke kd i = imexU TE TI dt u ke' kd' i := by
  unfold imexU
  rw [sum_congr_k he, sum_congr_k hd]

theorem imex_loop (TE TI : Tableau) (hn : TE.n = TI.n) (dt : ℝ) (semi : Bool) (FE : ℕ → V → V)
    (FI : ℕ → V → V → V) (root : (V → V) → V) (hroot : RootFinder root)
    (hs : StagesSolvable TI dt FI) (s : Imex V) (m : ℕ) (hm : m ≤ TE.n) :
    (loop (Imex.stage TE TI dt semi FE FI root) m s).erkOld = s.erkOld ∧
    ∀ j < m,
      (loop (Imex.stage TE TI dt semi FE FI root) m s).ke j =
        dt • FE j (imexU TE TI dt s.erkOld (loop (Imex.stage TE TI dt semi FE FI root) m s).ke
          (loop (Imex.stage TE TI dt semi FE FI root) m s).kd j) ∧
      (loop (Imex.stage TE TI dt semi FE FI root) m s).kd j =
        FI j (imexU TE TI dt s.erkOld (loop (Imex.stage TE TI dt semi FE FI root) m s).ke
          (loop (Imex.stage TE TI dt semi FE FI root) m s).kd j)
          (s.erkOld + ∑ l ∈ range j, TE.a j l •
            (loop (Imex.stage TE TI dt semi FE FI root) m s).ke l) := by
  induction m with
  | zero => exact ⟨rfl, fun j hj => absurd hj (Nat.not_lt_zero j)⟩
  | succ m ih =>
    have hmn : m < TI.n := by omega
    obtain ⟨h1, h2⟩ := ih (by omega)
    have hst : loop (Imex.stage TE TI dt semi FE FI root) (m + 1) s
      = Imex.stage TE TI dt semi FE FI root m (loop (Imex.stage TE TI dt semi FE FI root) m s) := rfl
    rw [hst]
    set L := loop (Imex.stage TE TI dt semi FE FI root) m s with hL
    set N := Imex.stage TE TI dt semi FE FI root m L with hN
    set E := s.erkOld + ∑ l ∈ range m, TE.a m l • L.ke l with hE
    have hE' : (if 0 < m then L.erkOld + ∑ l ∈ range m, TE.a m l • L.ke l else L.erkOld) = E := by
      rw [h1]
      by_cases h0 : 0 < m
      · rw [if_pos h0]
      · have : m = 0 := by omega
        subst this
        simp [hE]
    have hke : ∀ l < m, N.ke l = L.ke l := by
      intro l hl
      simp [hN, Imex.stage, Imex.putErk, Imex.putDirk, Imex.erk, Imex.dirk, Erk.solveTendency,
        Erk.updateSolution, Dirk.solveTendency, Dirk.updateSolution, Function.update_of_ne hl.ne]
    have hkd : ∀ l < m, N.kd l = L.kd l := by
      intro l hl
      simp [hN, Imex.stage, Imex.putErk, Imex.putDirk, Imex.erk, Imex.dirk, Erk.solveTendency,
        Erk.updateSolution, Dirk.solveTendency, Dirk.updateSolution, Function.update_of_ne hl.ne]
    have hold : N.erkOld = s.erkOld := by
      rw [← h1]
      simp [hN, Imex.stage, Imex.putErk, Imex.putDirk, Imex.erk, Imex.dirk, Erk.solveTendency,
        Erk.updateSolution, Dirk.solveTendency, Dirk.updateSolution]
    have hNkd : N.kd m = root fun k =>
        -k + FI m (E + ∑ l ∈ range m, (TI.a m l * dt) • L.kd l + (TI.a m m * dt) • k) E := by
      simp only [hN, Imex.stage, Imex.putErk, Imex.putDirk, Imex.erk, Imex.dirk, Erk.solveTendency,
        Erk.updateSolution, Dirk.solveTendency, Dirk.updateSolution, Function.update_self, hE',
        ite_self]
    have hz := hroot _ (hs m hmn (E + ∑ l ∈ range m, (TI.a m l * dt) • L.kd l) E)
    rw [← hNkd, neg_add_eq_zero] at hz
    have hU : imexU TE TI dt s.erkOld N.ke N.kd m
        = E + ∑ l ∈ range m, (TI.a m l * dt) • L.kd l + (TI.a m m * dt) • N.kd m := by
      unfold imexU
      rw [sum_congr_k (K' := L.ke) hke, Finset.sum_range_succ,
        sum_congr_k (K' := L.kd) (fun l hl => hkd l hl), ← hE, ← add_assoc]
      simp only [mul_comm dt]
    have hNsol : N.sol = imexU TE TI dt s.erkOld N.ke N.kd m := by
      have : N.sol = E + ∑ l ∈ range (m + 1), (dt * TI.a m l) • N.kd l := by
        simp only [hN, Imex.stage, Imex.putErk, Imex.putDirk, Imex.erk, Imex.dirk,
          Erk.solveTendency, Erk.updateSolution, Dirk.solveTendency, Dirk.updateSolution, hE',
          ite_self]
      rw [this]
      unfold imexU
      rw [sum_congr_k (K' := L.ke) hke]
    have hNke : N.ke m = dt • FE m N.sol := by
      simp only [hN, Imex.stage, Imex.putErk, Imex.putDirk, Imex.erk, Imex.dirk,
        Erk.solveTendency, Erk.updateSolution, Dirk.solveTendency, Dirk.updateSolution,
        Function.update_self]
    refine ⟨hold, fun j hj => ?_⟩
    rcases Nat.lt_succ_iff_lt_or_eq.1 hj with hj | rfl
    · rw [imexU_congr TE TI dt s.erkOld (ke' := L.ke) (kd' := L.kd) (fun l hl => hke l (by omega))
        (fun l hl => hkd l (by omega)), hke j hj, hkd j hj,
        sum_congr_k (K' := L.ke) (fun l hl => hke l (by omega))]
      exact h2 j hj
    · refine ⟨by rw [hNke, hNsol], ?_⟩
      rw [hU, sum_congr_k (K' := L.ke) hke, ← hE]
      exact hz

end

/-! ### The conversion of SSPRK33, computed -/

theorem v32 (a b c : ℝ) : (![a, b, c] : Fin 3 → ℝ) 2 = c := rfl
theorem v32' (a b c : ℝ) :
  (Matrix.vecCons a (fun i => Matrix.vecCons b (fun _ => c) i) : Fin 3 → ℝ) 2 = c := rfl
noncomputable def m33 : Matrix (Fin 3) (Fin 3) ℝ := !![1, 0, 0; 1/4, 1/4, 0; 1/6, 1/6, 2/3]
noncomputable def i33 : Matrix (Fin 3) (Fin 3) ℝ := !![1, 0, 0; -1, 4, 0; 0, -1, 3/2]

theorem ssprk33_aa : ssprk33.aa = m33 := by
  ext i j
  change Fin 3 at i j
  fin_cases i <;> fin_cases j <;> rfl

theorem m33_inv : m33⁻¹ = i33 := by
  refine Matrix.inv_eq_right_inv ?_
  ext i j
  fin_cases i <;> fin_cases j <;> norm_num [Matrix.mul_apply, Fin.sum_univ_three, m33, i33, v32, v32']

theorem m33_al : (1 - Matrix.diagonal (fun i => m33 i i) * m33⁻¹)
    = !![0, 0, 0; 1/4, 0, 0; 0, 2/3, 0] := by
  rw [m33_inv]
  ext i j
  fin_cases i <;> fin_cases j <;> norm_num [Matrix.diagonal_mul, m33, i33]

theorem ssprk33_al0 : ssprk33.al0 = (!![0, 0, 0; 1/4, 0, 0; 0, 2/3, 0] : Matrix (Fin 3) (Fin 3) ℝ) := by
  rw [← m33_al]
  unfold Tableau.al0 Tableau.be0
  rw [ssprk33_aa]
  rfl

theorem m33_det : m33.det ≠ 0 := by
  norm_num [m33, Matrix.det_fin_three, v32, v32']

theorem ssprk33_det : ssprk33.aa.det ≠ 0 := by
  rw [ssprk33_aa]; exact m33_det

theorem ssprk33_at0_al (i j : ℕ) : at0 ssprk33.al0 i j =
    if i = 1 ∧ j = 0 then 1 / 4 else if i = 2 ∧ j = 1 then 2 / 3 else 0 := by
  by_cases h : i < 3 ∧ j < 3
  · obtain ⟨hi, hj⟩ := h
    have e : at0 ssprk33.al0 i j
        = (!![0, 0, 0; 1/4, 0, 0; 0, 2/3, 0] : Matrix (Fin 3) (Fin 3) ℝ) ⟨i, hi⟩ ⟨j, hj⟩ := by
      rw [← ssprk33_al0]; exact at0_lt (n := 3) _ hi hj
    rw [e]
    interval_cases i <;> interval_cases j <;> simp
  · have e : at0 ssprk33.al0 i j = 0 := dif_neg h
    rw [e, if_neg (by omega), if_neg (by omega)]

theorem ssprk33_at0_be (i j : ℕ) : at0 ssprk33.be0 i j =
    if i = 0 ∧ j = 0 then 1 else if i = 1 ∧ j = 1 then 1 / 4 else
      if i = 2 ∧ j = 2 then 2 / 3 else 0 := by
  by_cases h : i < 3 ∧ j < 3
  · obtain ⟨hi, hj⟩ := h
    have e : at0 ssprk33.be0 i j
        = (Matrix.diagonal (fun i => m33 i i) : Matrix (Fin 3) (Fin 3) ℝ) ⟨i, hi⟩ ⟨j, hj⟩ := by
      have : ssprk33.be0 = Matrix.diagonal (fun i => m33 i i) := by
        unfold Tableau.be0; rw [ssprk33_aa]; rfl
      rw [this]; exact at0_lt (n := 3) _ hi hj
    rw [e]
    interval_cases i <;> interval_cases j <;> simp [Matrix.diagonal, m33]
  · have e : at0 ssprk33.be0 i j = 0 := dif_neg h
    rw [e, if_neg (by omega), if_neg (by omega), if_neg (by omega)]

theorem ssprk33_alpha0 (i : ℕ) : ssprk33.alpha (i + 1) 0
    = if i = 1 then 3 / 4 else if i = 2 then 1 / 3 else 1 := by
  have hn : ssprk33.n = 3 := rfl
  simp only [Tableau.alpha, hn, Finset.sum_range_succ, Finset.sum_range_zero, ssprk33_at0_al]
  rcases i with _ | _ | _ | i
  · norm_num
  · norm_num
  · norm_num
  · have h2 : ¬ (i + 1 + 1 + 1 = 2) := by omega
    simp [h2]

end Verif.RK
