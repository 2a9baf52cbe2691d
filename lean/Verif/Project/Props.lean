import Verif.Project.Model
import Mathlib.Tactic.Linarith
import Mathlib.Tactic.Positivity
import Mathlib.Tactic.FinCases
import Mathlib.Tactic.NormNum

/-!
Property C151: the projection of a field restricted to a subdomain.
-/

namespace Verif.Project

open Finset

variable {n : ℕ}

/-! ### Words of the statements -/

/-- The quadrature can tell the functions of the space apart: weights are not negative and only the zero
function of the space has mean square zero. -/
structure Definite (M : Mesh n) (V : Submodule ℝ (Fn M)) : Prop where
  nonneg : ∀ q, 0 ≤ M.w q
  faithful : ∀ f ∈ V, ∑ q, M.w q * ∑ k, f q k * f q k = 0 → f = 0

/-- A discontinuous space: it holds the restriction of each of its functions to each cell, extended by
zero. -/
def Discontinuous (M : Mesh n) (V : Submodule ℝ (Fn M)) : Prop :=
  ∀ f ∈ V, ∀ c : M.Cell, ∃ g ∈ V, (∀ q, M.cell q = c → g q = f q) ∧ (∀ q, M.cell q ≠ c → g q = 0)

/-- The integral of component `k` over the cells with the given ids. -/
noncomputable def total (M : Mesh n) (ids : Set ℕ) (f : Fn M) (k : Fin n) : ℝ :=
  open Classical in ∑ q : M.P, if M.id (M.cell q) ∈ ids then M.w q * f q k else 0

/-- The integral of the square over the cells with the given ids. -/
noncomputable def square (M : Mesh n) (ids : Set ℕ) (f : Fn M) : ℝ :=
  open Classical in ∑ q : M.P, if M.id (M.cell q) ∈ ids then M.w q * ∑ k, f q k ^ 2 else 0

/-! ### Rules of the integrals -/

section rules

variable (M : Mesh n)

theorem innerDx_add_left (ids : Set ℕ) (p p' v : Fn M) :
    innerDx M ids (p + p') v = innerDx M ids p v + innerDx M ids p' v := by
  unfold innerDx
  rw [← sum_add_distrib]
  refine sum_congr rfl fun q _ => ?_
  split
  · simp only [Pi.add_apply, add_mul, sum_add_distrib, mul_add]
  · simp

theorem innerDx_smul_left (ids : Set ℕ) (c : ℝ) (p v : Fn M) :
    innerDx M ids (c • p) v = c * innerDx M ids p v := by
  unfold innerDx
  rw [mul_sum]
  refine sum_congr rfl fun q _ => ?_
  split
  · simp only [Pi.smul_apply, smul_eq_mul, mul_assoc, ← mul_sum]
    ring
  · simp

theorem innerDx_comm (ids : Set ℕ) (p v : Fn M) : innerDx M ids p v = innerDx M ids v p := by
  unfold innerDx
  simp only [mul_comm (p _ _)]

theorem innerDx_add_right (ids : Set ℕ) (p v v' : Fn M) :
    innerDx M ids p (v + v') = innerDx M ids p v + innerDx M ids p v' := by
  rw [innerDx_comm, innerDx_add_left, innerDx_comm M ids v, innerDx_comm M ids v']

theorem innerDx_smul_right (ids : Set ℕ) (c : ℝ) (p v : Fn M) :
    innerDx M ids p (c • v) = c * innerDx M ids p v := by
  rw [innerDx_comm, innerDx_smul_left, innerDx_comm]

theorem innerDx_sub_right (ids : Set ℕ) (p v v' : Fn M) :
    innerDx M ids p (v - v') = innerDx M ids p v - innerDx M ids p v' := by
  have h : v - v' = v + (-1 : ℝ) • v' := by simp [sub_eq_add_neg]
  rw [h, innerDx_add_right, innerDx_smul_right]
  ring

theorem innerDx_union (a b : Set ℕ) (hab : Disjoint a b) (p v : Fn M) :
    innerDx M (a ∪ b) p v = innerDx M a p v + innerDx M b p v := by
  unfold innerDx
  rw [← sum_add_distrib]
  refine sum_congr rfl fun q _ => ?_
  by_cases ha : M.id (M.cell q) ∈ a
  · have hb : M.id (M.cell q) ∉ b := Set.disjoint_left.1 hab ha
    simp [ha, hb]
  · by_cases hb : M.id (M.cell q) ∈ b <;> simp [ha, hb]

theorem square_eq (ids : Set ℕ) (f : Fn M) : square M ids f = innerDx M ids f f := by
  unfold square innerDx
  simp only [pow_two]

theorem innerDx_univ (p v : Fn M) :
    innerDx M Set.univ p v = ∑ q, M.w q * ∑ k, p q k * v q k := by
  simp [innerDx]

end rules

variable {M : Mesh n} {V : Submodule ℝ (Fn M)}

theorem square_nonneg (hw : ∀ q, 0 ≤ M.w q) (ids : Set ℕ) (f : Fn M) : 0 ≤ square M ids f := by
  unfold square
  refine sum_nonneg fun q _ => ?_
  split
  · exact mul_nonneg (hw q) (sum_nonneg fun k _ => sq_nonneg _)
  · exact le_rfl

/-- The zero function is the only one of the space that is orthogonal to the space. -/
theorem zero_of_orthogonal (h : Definite M V) {f : Fn M} (hf : f ∈ V)
    (ho : ∀ p ∈ V, innerDx M Set.univ p f = 0) : f = 0 :=
  h.faithful f hf (by rw [← innerDx_univ]; exact ho f hf)

/-! ### C151 -/

/-- C151: for every expression, every choice of subdomains and every space the projection exists and is
unique. -/
theorem C151_exists_unique (h : Definite M V) (ids : Set ℕ) (v : Fn M) :
    ∃! out, Projects M V ids v out := by
  let B : V →ₗ[ℝ] Module.Dual ℝ V :=
    LinearMap.mk₂ ℝ (fun x y : V => innerDx M Set.univ y.1 x.1)
      (fun x x' y => innerDx_add_right M _ _ _ _) (fun c x y => innerDx_smul_right M _ _ _ _)
      (fun x y y' => innerDx_add_left M _ _ _ _) (fun c x y => innerDx_smul_left M _ _ _ _)
  have hB : Function.Injective B := by
    rw [← LinearMap.ker_eq_bot, LinearMap.ker_eq_bot']
    intro x hx
    refine Subtype.ext (zero_of_orthogonal h x.2 fun p hp => ?_)
    have := congrArg (fun L : Module.Dual ℝ V => L ⟨p, hp⟩) hx
    exact this
  have hS : Function.Surjective B :=
    (LinearMap.injective_iff_surjective_of_finrank_eq_finrank
      (Subspace.dual_finrank_eq (K := ℝ) (V := V)).symm).1 hB
  let L : Module.Dual ℝ V :=
    { toFun := fun p => innerDx M ids p.1 v
      map_add' := fun p p' => innerDx_add_left M _ _ _ _
      map_smul' := fun c p => innerDx_smul_left M _ _ _ _ }
  obtain ⟨x, hx⟩ := hS L
  refine ⟨x.1, ⟨x.2, fun p hp => ?_⟩, ?_⟩
  · exact congrArg (fun L : Module.Dual ℝ V => L ⟨p, hp⟩) hx
  · rintro y ⟨hy, hyp⟩
    have h0 : y - x.1 = 0 := by
      refine zero_of_orthogonal h (V.sub_mem hy x.2) fun p hp => ?_
      have e1 := hyp p hp
      have e2 : innerDx M Set.univ p x.1 = innerDx M ids p v :=
        congrArg (fun L : Module.Dual ℝ V => L ⟨p, hp⟩) hx
      unfold lhs rhs at e1
      rw [innerDx_sub_right, e1, e2, sub_self]
    exact sub_eq_zero.1 h0

/-- C151: projections add: those of disjoint subdomains to the projection on their union, those of
several expressions to that of the weighted sum. -/
theorem C151_adds (a b : Set ℕ) (hab : Disjoint a b) (v v' x x' y : Fn M) (c : ℝ)
    (hx : Projects M V a v x) (hx' : Projects M V b v x') (hy : Projects M V a v' y) :
    Projects M V (a ∪ b) v (x + x') ∧ Projects M V a (v + c • v') (x + c • y) := by
  refine ⟨⟨V.add_mem hx.1 hx'.1, fun p hp => ?_⟩,
    ⟨V.add_mem hx.1 (V.smul_mem c hy.1), fun p hp => ?_⟩⟩
  · have e1 := hx.2 p hp
    have e2 := hx'.2 p hp
    unfold lhs rhs at *
    rw [innerDx_add_right, innerDx_union M a b hab, e1, e2]
  · have e1 := hx.2 p hp
    have e2 := hy.2 p hp
    unfold lhs rhs at *
    rw [innerDx_add_right, innerDx_smul_right, innerDx_add_right, innerDx_smul_right, e1, e2]

/-- C151: the integral of the result over the whole mesh is that of the expression over the subdomain (for
every component of which the space has the constant function). -/
theorem C151_total (ids : Set ℕ) (v out : Fn M) (hp : Projects M V ids v out) (k : Fin n)
    (hc : (fun _ => Pi.single k 1 : Fn M) ∈ V) : total M Set.univ out k = total M ids v k := by
  have h := hp.2 _ hc
  have one : ∀ (s : Set ℕ) (f : Fn M), innerDx M s (fun _ => Pi.single k 1) f = total M s f k := by
    intro s f
    unfold innerDx total
    refine sum_congr rfl fun q _ => ?_
    have : (∑ j, (Pi.single k 1 : Fin n → ℝ) j * f q j) = f q k := by
      rw [Fintype.sum_eq_single k]
      · simp
      · intro j hj
        simp [hj]
    rw [this]
  unfold lhs rhs at h
  rwa [one, one] at h

/-- C151: the mean square of the result over the whole mesh is at most that of the expression over the
subdomain. -/
theorem C151_bound (h : Definite M V) (ids : Set ℕ) (v out : Fn M) (hp : Projects M V ids v out) :
    square M Set.univ out ≤ square M ids v := by
  have e := hp.2 out hp.1
  unfold lhs rhs at e
  rw [← square_eq] at e
  have h1 : square M ids out ≤ square M Set.univ out := by
    unfold square
    refine sum_le_sum fun q _ => ?_
    have h0 : 0 ≤ M.w q * ∑ k, out q k ^ 2 :=
      mul_nonneg (h.nonneg q) (sum_nonneg fun k _ => sq_nonneg _)
    split
    · simp
    · simpa using h0
  have h2 : 0 ≤ square M ids (out - v) := square_nonneg h.nonneg ids _
  have h3 : square M ids (out - v) =
      square M ids out - 2 * innerDx M ids out v + square M ids v := by
    rw [square_eq, square_eq, square_eq, innerDx_sub_right, innerDx_comm M ids (out - v) out,
      innerDx_comm M ids (out - v) v, innerDx_sub_right, innerDx_sub_right,
      innerDx_comm M ids v out]
    ring
  linarith

open Classical in
/-- C151: into a discontinuous space, the result is zero in all cells outside of the subdomain and, for an
expression that belongs to the space, equal to the expression inside. -/
theorem C151_restriction (h : Definite M V) (hd : Discontinuous M V) (ids : Set ℕ) (v out : Fn M)
    (hp : Projects M V ids v out) :
    (∀ q, M.id (M.cell q) ∉ ids → out q = 0) ∧
    (v ∈ V → ∀ q, M.id (M.cell q) ∈ ids → out q = v q) := by
  -- the difference of two functions of the space on one cell
  have key : ∀ (c : M.Cell) (g : Fn M), g ∈ V → (∀ q, M.cell q ≠ c → g q = 0) →
      innerDx M Set.univ g g = 0 → g = 0 := by
    intro c g hg _ h0
    exact h.faithful g hg (by rw [← innerDx_univ]; exact h0)
  refine ⟨fun q hq => ?_, fun hv q hq => ?_⟩
  · obtain ⟨g, hg, g1, g2⟩ := hd out hp.1 (M.cell q)
    have e := hp.2 g hg
    unfold lhs rhs at e
    have e1 : innerDx M ids g v = 0 := by
      unfold innerDx
      refine sum_eq_zero fun r _ => ?_
      split
      · rename_i hr
        have : M.cell r ≠ M.cell q := fun hh => hq (hh ▸ hr)
        rw [g2 r this]
        simp
      · rfl
    have e2 : innerDx M Set.univ g out = innerDx M Set.univ g g := by
      rw [innerDx_univ, innerDx_univ]
      refine sum_congr rfl fun r _ => ?_
      by_cases hr : M.cell r = M.cell q
      · rw [g1 r hr]
      · rw [g2 r hr]; simp
    have := key _ g hg g2 (by rw [← e2, e, e1])
    rw [← g1 q rfl, this]
    rfl
  · obtain ⟨g, hg, g1, g2⟩ := hd (out - v) (V.sub_mem hp.1 hv) (M.cell q)
    have e := hp.2 g hg
    unfold lhs rhs at e
    have e1 : innerDx M ids g v = innerDx M Set.univ g v := by
      unfold innerDx
      refine sum_congr rfl fun r _ => ?_
      by_cases hr : M.cell r = M.cell q
      · simp [hr, hq]
      · rw [g2 r hr]; simp
    have e2 : innerDx M Set.univ g (out - v) = innerDx M Set.univ g g := by
      rw [innerDx_univ, innerDx_univ]
      refine sum_congr rfl fun r _ => ?_
      by_cases hr : M.cell r = M.cell q
      · rw [g1 r hr]
      · rw [g2 r hr]; simp
    have := key _ g hg g2 (by rw [← e2, innerDx_sub_right, e, e1, sub_self])
    have e3 : (out - v) q = 0 := by
      rw [← g1 q rfl, this]
      rfl
    exact sub_eq_zero.1 e3

/-- C151: an expression that belongs to the space is reproduced when all cells belong to the
subdomain. -/
theorem C151_whole (h : Definite M V) (ids : Set ℕ) (hall : ∀ c, M.id c ∈ ids) (v out : Fn M)
    (hv : v ∈ V) (hp : Projects M V ids v out) : out = v := by
  refine sub_eq_zero.1 (zero_of_orthogonal h (V.sub_mem hp.1 hv) fun p hpV => ?_)
  have e := hp.2 p hpV
  unfold lhs rhs at e
  have e1 : innerDx M ids p v = innerDx M Set.univ p v := by
    unfold innerDx
    refine sum_congr rfl fun r _ => ?_
    simp [hall]
  rw [innerDx_sub_right, e, e1, sub_self]

/-! ### Example: two cells with one point each, piecewise constants -/

/-- Cell 0 belongs to the farm with id 2, cell 1 has id 1. -/
def two : Mesh 1 where
  P := Fin 2
  Cell := Fin 2
  w _ := 1
  cell q := q
  id c := if c = 0 then 2 else 1

theorem two_definite : Definite two ⊤ := by
  refine ⟨fun _ => zero_le_one, fun f _ h => ?_⟩
  have h' : (∑ q : Fin 2, (1 : ℝ) * ∑ k : Fin 1, f q k * f q k) = 0 := h
  simp only [Fin.sum_univ_two, Fin.sum_univ_one, one_mul] at h'
  have h0 : f (0 : Fin 2) 0 = 0 := by nlinarith [mul_self_nonneg (f (0 : Fin 2) 0), mul_self_nonneg (f (1 : Fin 2) 0)]
  have h1 : f (1 : Fin 2) 0 = 0 := by nlinarith [mul_self_nonneg (f (0 : Fin 2) 0), mul_self_nonneg (f (1 : Fin 2) 0)]
  funext q k
  have hk : k = 0 := Subsingleton.elim _ _
  subst hk
  change Fin 2 at q
  fin_cases q
  · exact h0
  · exact h1

theorem two_discontinuous : Discontinuous two ⊤ := by
  intro f _ c
  classical
  refine ⟨fun q => if two.cell q = c then f q else 0, trivial, fun q hq => by simp [hq],
    fun q hq => by simp [hq]⟩

/-- A density of 3 turbines per area everywhere: 3 in the farm, 0 outside. -/
example : ∃! out, Projects two ⊤ {2} (fun _ _ => 3) out := C151_exists_unique two_definite _ _

example (out : Fn two) (hp : Projects two ⊤ {2} (fun _ _ => 3) out) :
    out (0 : Fin 2) 0 = 3 ∧ out (1 : Fin 2) 0 = 0 := by
  obtain ⟨h1, h2⟩ := C151_restriction two_definite two_discontinuous {2} _ out hp
  have a := h2 trivial (0 : Fin 2) (by simp [two])
  have b := h1 (1 : Fin 2) (by simp [two])
  exact ⟨by rw [a], by rw [b]; rfl⟩

end Verif.Project
