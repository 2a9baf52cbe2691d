import Verif.Converge.Props

/-!
Errors of one step with implicit and explicit stages, in a normed space.  `P` and `Q` are the implicit and the explicit tendency of
the solution at the start of the step, and `u0` is the solution there.
-/

namespace Verif.Imex

open Finset Verif.Converge

variable {F : Type*} [NormedAddCommGroup F] [NormedSpace ℝ F]

/-- A bound for weights. -/
def weight (n : ℕ) (b b' : ℕ → ℝ) : ℝ := ∑ j ∈ range n, (|b j| + |b' j|)

theorem weight_nonneg (n : ℕ) (b b' : ℕ → ℝ) : 0 ≤ weight n b b' := sum_nonneg fun _ _ => by positivity

/-- A bound for the weights of all stages. -/
def weights (n : ℕ) (a a' : ℕ → ℕ → ℝ) : ℝ := ∑ i ∈ range n, weight n (a i) (a' i)

theorem weights_nonneg (n : ℕ) (a a' : ℕ → ℕ → ℝ) : 0 ≤ weights n a a' := sum_nonneg fun _ _ => weight_nonneg _ _ _

theorem weight_le {n i : ℕ} (hi : i < n) (a a' : ℕ → ℕ → ℝ) : weight n (a i) (a' i) ≤ weights n a a' :=
  single_le_sum (f := fun i => weight n (a i) (a' i)) (fun _ _ => weight_nonneg _ _ _) (mem_range.2 hi)

theorem norm_two (n : ℕ) (b b' : ℕ → ℝ) (x y : ℕ → F) {M : ℝ} (hx : ∀ j < n, ‖x j‖ ≤ M) (hy : ∀ j < n, ‖y j‖ ≤ M) :
    ‖∑ j ∈ range n, b j • x j + ∑ j ∈ range n, b' j • y j‖ ≤ weight n b b' * M := by
  rw [← sum_add_distrib, weight, sum_mul]
  refine (norm_sum_le _ _).trans (sum_le_sum fun j hj => (norm_add_le _ _).trans ?_)
  rw [norm_smul, norm_smul, Real.norm_eq_abs, Real.norm_eq_abs, add_mul]
  have := hx j (mem_range.1 hj)
  have := hy j (mem_range.1 hj)
  gcongr

/-- A step: `p` and `q` are the implicit and explicit tendencies of the stages `s`. -/
structure Sums (n : ℕ) (a a' : ℕ → ℕ → ℝ) (b b' : ℕ → ℝ) (dt : ℝ) (old new : F) (s p q : ℕ → F) : Prop where
  stage : ∀ i < n, s i = old + dt • (∑ j ∈ range n, a i j • p j + ∑ j ∈ range n, a' i j • q j)
  new_eq : new = old + dt • (∑ j ∈ range n, b j • p j + ∑ j ∈ range n, b' j • q j)

/-- The distance of the stages from the solution at the start of the step. -/
def spread (n : ℕ) (s : ℕ → F) (u0 : F) : ℝ := ∑ j ∈ range n, ‖s j - u0‖

omit [NormedSpace ℝ F] in
theorem spread_nonneg (n : ℕ) (s : ℕ → F) (u0 : F) : 0 ≤ spread n s u0 := sum_nonneg fun _ _ => norm_nonneg _

omit [NormedSpace ℝ F] in
theorem le_spread {n j : ℕ} (hj : j < n) (s : ℕ → F) (u0 : F) : ‖s j - u0‖ ≤ spread n s u0 :=
  single_le_sum (f := fun j => ‖s j - u0‖) (fun _ _ => norm_nonneg _) (mem_range.2 hj)

section Step

variable {n : ℕ} {a a' : ℕ → ℕ → ℝ} {b b' c c' : ℕ → ℝ} {dt : ℝ} {old new u0 P Q : F} {s p q : ℕ → F} {κ G : ℝ}
  (hs : Sums n a a' b b' dt old new s p q) (hdt : 0 ≤ dt) (hκ : 0 ≤ κ)
  (hp : ∀ j < n, ‖p j - P‖ ≤ κ * (dt + spread n s u0 + ‖old - u0‖))
  (hq : ∀ j < n, ‖q j - Q‖ ≤ κ * (dt + spread n s u0 + ‖old - u0‖))

/-- Sums of tendencies are close to sums of the tendencies of the solution. -/
theorem sums_close (d d' : ℕ → ℝ) {M : ℝ} (hp : ∀ j < n, ‖p j - P‖ ≤ M) (hq : ∀ j < n, ‖q j - Q‖ ≤ M) :
    ‖(∑ j ∈ range n, d j • p j + ∑ j ∈ range n, d' j • q j) - ((∑ j ∈ range n, d j) • P + (∑ j ∈ range n, d' j) • Q)‖ ≤
      weight n d d' * M := by
  have := norm_two n d d' (fun j => p j - P) (fun j => q j - Q) hp hq
  simp only [smul_sub, sum_sub_distrib, ← sum_smul] at this
  refine le_trans (le_of_eq ?_) this
  congr 1
  abel

include hs hdt hκ hp hq in
/-- The stages are close to the solution. -/
theorem spread_le (hdt1 : dt ≤ 1) (hP : ‖P‖ ≤ G) (hQ : ‖Q‖ ≤ G) (hsmall : dt * (n * (weights n a a' * κ)) ≤ 1 / 2) :
    spread n s u0 ≤ 2 * (n * (1 + weights n a a' * κ)) * ‖old - u0‖ + 2 * (n * (weights n a a' * (κ + G))) * dt := by
  obtain ⟨X, hX⟩ : ∃ X, X = spread n s u0 := ⟨_, rfl⟩
  obtain ⟨E, hE⟩ : ∃ E, E = ‖old - u0‖ := ⟨_, rfl⟩
  have hX0 : 0 ≤ X := hX ▸ spread_nonneg _ _ _
  have hE0 : 0 ≤ E := hE ▸ norm_nonneg _
  rw [← hX, ← hE] at hp hq ⊢
  have hA := weights_nonneg n a a'
  have hG : 0 ≤ G := (norm_nonneg P).trans hP
  have tri : ∀ {x y : F} {r : ℝ}, ‖x - y‖ ≤ r → ‖y‖ ≤ G → ‖x‖ ≤ r + G := fun h h' => norm_le_add h h'
  have h1 : ∀ i < n, ‖s i - u0‖ ≤ E + dt * (weights n a a' * (κ * (dt + X + E) + G)) := fun i hi => by
    have e : s i - u0 = (old - u0) + dt • (∑ j ∈ range n, a i j • p j + ∑ j ∈ range n, a' i j • q j) := by
      rw [hs.stage i hi]; abel
    rw [e, hE]
    refine (norm_add_le _ _).trans (add_le_add le_rfl ?_)
    rw [norm_smul, Real.norm_of_nonneg hdt]
    refine mul_le_mul_of_nonneg_left ?_ hdt
    refine (norm_two n (a i) (a' i) p q (fun j hj => tri (hp j hj) hP) fun j hj => tri (hq j hj) hQ).trans ?_
    rw [hE]
    refine mul_le_mul_of_nonneg_right (weight_le hi a a') (by positivity)
  have h2 : X ≤ n * (E + dt * (weights n a a' * (κ * (dt + X + E) + G))) := by
    refine hX.le.trans ((sum_le_sum fun i hi => h1 i (mem_range.1 hi)).trans (le_of_eq ?_))
    rw [sum_const, card_range, nsmul_eq_mul]
  have h3 : dt * (n * (weights n a a' * κ)) * X ≤ 1 / 2 * X := mul_le_mul_of_nonneg_right hsmall hX0
  have h4 : n * (dt * (weights n a a' * (κ * dt))) ≤ n * (dt * (weights n a a' * κ)) := by
    have : κ * dt ≤ κ := mul_le_of_le_one_right hκ hdt1
    gcongr
  have h5 : n * (dt * (weights n a a' * (κ * E))) ≤ n * (weights n a a' * (κ * E)) := by
    have : dt * (weights n a a' * (κ * E)) ≤ weights n a a' * (κ * E) := mul_le_of_le_one_left (by positivity) hdt1
    gcongr
  nlinarith

include hs hdt hp hq in
/-- The error after a step, to first order. -/
theorem step_first (h1 : ∑ j ∈ range n, b j = 1) (h1' : ∑ j ∈ range n, b' j = 1) (u1 : F) :
    ‖new - u1‖ ≤ ‖old - u0‖ + dt * (weight n b b' * (κ * (dt + spread n s u0 + ‖old - u0‖))) + ‖u1 - u0 - dt • (P + Q)‖ := by
  have key := sums_close b b' hp hq
  rw [h1, h1', one_smul, one_smul] at key
  obtain ⟨z, hz⟩ : ∃ z, z = (∑ j ∈ range n, b j • p j + ∑ j ∈ range n, b' j • q j) - (P + Q) := ⟨_, rfl⟩
  rw [← hz] at key
  have e : new - u1 = (old - u0) + dt • z - (u1 - u0 - dt • (P + Q)) := by
    rw [hs.new_eq, hz, smul_sub]; abel
  rw [e]
  refine (_root_.norm_sub_le _ _).trans (add_le_add ((norm_add_le _ _).trans (add_le_add le_rfl ?_)) le_rfl)
  rw [norm_smul, Real.norm_of_nonneg hdt]
  exact mul_le_mul_of_nonneg_left key hdt

end Step

/-! ### Second order -/

section Second

variable {n : ℕ} {a a' : ℕ → ℕ → ℝ} {b b' c c' : ℕ → ℝ} {dt : ℝ} {old new u0 P Q P' Q' : F} {s p q : ℕ → F} {κ μ L : ℝ}

/-- The weighted sum of tendencies that are linear up to terms of second order. -/
theorem linear_sum (D : F →ₗ[ℝ] F) (d : ℕ → ℝ) (y r : ℕ → F) (e z : F)
    (hp : ∀ j < n, p j = P + (c j * dt) • P' + D (e + y j + ((c' j - c j) * dt) • z) + r j)
    (h1 : ∑ j ∈ range n, d j = 1) (h2 : ∑ j ∈ range n, d j * c j = 1 / 2) (h2' : ∑ j ∈ range n, d j * c' j = 1 / 2) :
    ∑ j ∈ range n, d j • p j = P + (dt / 2) • P' + D e + ∑ j ∈ range n, d j • (D (y j) + r j) := by
  have e1 : ∀ j ∈ range n, d j • p j = d j • (P + D e) + (d j * c j) • (dt • P') +
      (d j * c' j - d j * c j) • (dt • D z) + d j • (D (y j) + r j) := fun j hj => by
    rw [hp j (mem_range.1 hj), map_add, map_add, map_smul]
    module
  rw [sum_congr rfl e1, sum_add_distrib, sum_add_distrib, sum_add_distrib, ← sum_smul, ← sum_smul, ← sum_smul, sum_sub_distrib,
    h1, h2, h2']
  module

/-- The error after a step, to second order. -/
theorem step_second (hs : Sums n a a' b b' dt old new s p q) (hdt : 0 ≤ dt) (hL : 0 ≤ L) (D D' : F →ₗ[ℝ] F)
    (hD : ∀ x, ‖D x‖ ≤ L * ‖x‖) (hD' : ∀ x, ‖D' x‖ ≤ L * ‖x‖) (r r' : ℕ → F) {M R : ℝ} (hM : 0 ≤ M)
    (hp : ∀ j < n, p j = P + (c j * dt) • P' + D (s j - u0 - (c j * dt) • (P + Q)) + r j)
    (hq : ∀ j < n, q j = Q + (c' j * dt) • Q' + D' (s j - u0 - (c' j * dt) • (P + Q)) + r' j)
    (hr : ∀ j < n, ‖r j‖ ≤ R) (hr' : ∀ j < n, ‖r' j‖ ≤ R) (hpM : ∀ j < n, ‖p j - P‖ ≤ M) (hqM : ∀ j < n, ‖q j - Q‖ ≤ M)
    (ha : ∀ i < n, ∑ j ∈ range n, a i j = c i) (ha' : ∀ i < n, ∑ j ∈ range n, a' i j = c' i)
    (hb : ∑ j ∈ range n, b j = 1) (hb' : ∑ j ∈ range n, b' j = 1)
    (hbc : ∑ j ∈ range n, b j * c j = 1 / 2) (hbc' : ∑ j ∈ range n, b j * c' j = 1 / 2)
    (hb'c : ∑ j ∈ range n, b' j * c j = 1 / 2) (hb'c' : ∑ j ∈ range n, b' j * c' j = 1 / 2) (u1 : F) :
    ‖new - u1‖ ≤ (1 + 2 * dt * L) * ‖old - u0‖ + dt * (weight n b b' * (L * (dt * (weights n a a' * M)) + R)) +
      ‖u1 - u0 - dt • (P + Q) - (dt ^ 2 / 2) • (P' + Q')‖ := by
  obtain ⟨e, he⟩ : ∃ e, e = old - u0 := ⟨_, rfl⟩
  obtain ⟨y, hy⟩ : ∃ y : ℕ → F, y = fun j => s j - u0 - e - dt • (c j • P + c' j • Q) := ⟨_, rfl⟩
  have hyM : ∀ i < n, ‖y i‖ ≤ dt * (weights n a a' * M) := fun i hi => by
    have h := sums_close (a i) (a' i) hpM hqM
    rw [ha i hi, ha' i hi] at h
    have e1 : y i = dt • ((∑ j ∈ range n, a i j • p j + ∑ j ∈ range n, a' i j • q j) - (c i • P + c' i • Q)) := by
      simp only [hy, he]
      rw [hs.stage i hi, smul_sub]
      abel
    rw [e1, norm_smul, Real.norm_of_nonneg hdt]
    refine mul_le_mul_of_nonneg_left (h.trans ?_) hdt
    exact mul_le_mul_of_nonneg_right (weight_le hi a a') hM
  have s1 := linear_sum (n := n) (p := p) (c := c) (c' := c') (dt := dt) (P := P) (P' := P') D b y r e Q (fun j hj => by
    rw [hp j hj]
    congr 3
    simp only [hy]
    module) hb hbc hbc'
  have s2 := linear_sum (n := n) (p := q) (c := c') (c' := c) (dt := dt) (P := Q) (P' := Q') D' b' y r' e P (fun j hj => by
    rw [hq j hj]
    congr 3
    simp only [hy]
    module) hb' hb'c' hb'c
  have hz := norm_two n b b' (fun j => D (y j) + r j) (fun j => D' (y j) + r' j) (M := L * (dt * (weights n a a' * M)) + R)
    (fun j hj => (norm_add_le _ _).trans (add_le_add ((hD _).trans (mul_le_mul_of_nonneg_left (hyM j hj) hL)) (hr j hj)))
    (fun j hj => (norm_add_le _ _).trans (add_le_add ((hD' _).trans (mul_le_mul_of_nonneg_left (hyM j hj) hL)) (hr' j hj)))
  obtain ⟨z, hz'⟩ : ∃ z, z = ∑ j ∈ range n, b j • (D (y j) + r j) + ∑ j ∈ range n, b' j • (D' (y j) + r' j) := ⟨_, rfl⟩
  rw [← hz'] at hz
  have e1 : new - u1 = e + dt • D e + dt • D' e + dt • z - (u1 - u0 - dt • (P + Q) - (dt ^ 2 / 2) • (P' + Q')) := by
    rw [hs.new_eq, s1, s2, hz', he]
    module
  rw [e1, ← he]
  refine (_root_.norm_sub_le _ _).trans (add_le_add ((norm_add_le _ _).trans (add_le_add ?_ ?_)) le_rfl)
  · refine (norm_add₃_le).trans ?_
    rw [norm_smul, norm_smul, Real.norm_of_nonneg hdt]
    have i1 := mul_le_mul_of_nonneg_left (hD e) hdt
    have i2 := mul_le_mul_of_nonneg_left (hD' e) hdt
    linarith
  · rw [norm_smul, Real.norm_of_nonneg hdt]
    exact mul_le_mul_of_nonneg_left hz hdt

end Second

end Verif.Imex
