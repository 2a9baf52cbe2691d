import Verif.Converge.Lemmas
import Verif.RK.Props

/-!
C129: methods with stages converge with the order of their table, in a normed space.
-/

namespace Verif.Converge

open Finset RK

variable {F : Type*} [NormedAddCommGroup F] [NormedSpace ℝ F]

/-- `U` solves `u' = f(t, u)` up to `tEnd`, within a set where `f` is Lipschitz continuous. -/
structure Problem (f : ℝ → F → F) (U : ℝ → F) (S : Set F) (L tEnd : ℝ) : Prop where
  eqn : ∀ t, 0 ≤ t → t ≤ tEnd → deriv U t = f t (U t)
  mem : ∀ t, 0 ≤ t → t ≤ tEnd → U t ∈ S
  nonneg : 0 ≤ L
  lip : ∀ t, 0 ≤ t → t ≤ tEnd → ∀ x ∈ S, ∀ y ∈ S, ‖f t x - f t y‖ ≤ L * ‖x - y‖

/-- Steps of length `dt` up to `tEnd`; the stages stay within `S`. -/
def Run (T : Tableau) (f : ℝ → F → F) (S : Set F) (tEnd dt : ℝ) (u : ℕ → F) : Prop :=
  ∀ m : ℕ, (m + 1) * dt ≤ tEnd → ∃ s, Stages T f (m * dt) dt (u m) (u (m + 1)) s ∧ ∀ i < T.n, s i ∈ S

/-- The stages lie within the time step. -/
def Nodes (T : Tableau) : Prop := ∀ j < T.n, 0 ≤ T.c j ∧ T.c j ≤ 1

/-! ### Defects -/

section Defects

variable {f : ℝ → F → F} {U : ℝ → F} {S : Set F} {L tEnd : ℝ} (P : Problem f U S L tEnd) {T : Tableau} (hT : T.Accepted)
  (hc : Nodes T)

include P hc in
theorem defect_eq (i : ℕ) {t dt : ℝ} (ht : 0 ≤ t) (hdt : 0 ≤ dt) (hte : t + dt ≤ tEnd) :
    defect T f t dt (U t) (fun j => U (t + T.c j * dt)) i =
      U (t + T.c i * dt) - U t - dt • ∑ j ∈ range T.n, T.a i j • deriv U (t + T.c j * dt) := by
  unfold defect
  congr 2
  refine sum_congr rfl fun j hj => ?_
  have := hc j (mem_range.1 hj)
  rw [P.eqn _ (by nlinarith) (by nlinarith)]

include P hc in
theorem defectEnd_eq {t dt : ℝ} (ht : 0 ≤ t) (hdt : 0 ≤ dt) (hte : t + dt ≤ tEnd) :
    defectEnd T f t dt (U t) (U (t + dt)) (fun j => U (t + T.c j * dt)) =
      U (t + 1 * dt) - U t - dt • ∑ j ∈ range T.n, T.b j • deriv U (t + T.c j * dt) := by
  unfold defectEnd
  rw [one_mul]
  congr 2
  refine sum_congr rfl fun j hj => ?_
  have := hc j (mem_range.1 hj)
  rw [P.eqn _ (by nlinarith) (by nlinarith)]

include P hT hc in
/-- The stages have order one. -/
theorem defect_stages (hU : ContDiff ℝ 2 U) :
    ∃ M, 0 ≤ M ∧ ∀ t dt, 0 ≤ t → 0 ≤ dt → t + dt ≤ tEnd → ∀ i < T.n,
      ‖defect T f t dt (U t) (fun j => U (t + T.c j * dt)) i‖ ≤ M * dt ^ 2 := by
  have h : ∀ i : ℕ, ∃ M, 0 ≤ M ∧ (i < T.n → ∀ t dt, 0 ≤ t → 0 ≤ dt → t + dt ≤ tEnd →
      ‖defect T f t dt (U t) (fun j => U (t + T.c j * dt)) i‖ ≤ M * dt ^ 2) := fun i => by
    by_cases hi : i < T.n
    · obtain ⟨M, hM, h⟩ := quadrature 0 (U := U) (by exact_mod_cast hU) tEnd T.n (T.a i) T.c (T.c i) (hc i hi) hc
      refine ⟨M, hM, fun _ t dt ht hdt hte => ?_⟩
      have := h t dt ht hdt hte
      rw [← defect_eq P hc i ht hdt hte] at this
      simpa [hT.2 i hi] using this
    · exact ⟨0, le_rfl, fun h => absurd h hi⟩
  choose M hM h using h
  refine ⟨∑ i ∈ range T.n, M i, sum_nonneg fun i _ => hM i, fun t dt ht hdt hte i hi => (h i hi t dt ht hdt hte).trans ?_⟩
  gcongr
  exact single_le_sum (fun i _ => hM i) (mem_range.2 hi)

theorem bound_deriv {U : ℝ → F} (k : ℕ) (hU : ContDiff ℝ k U) (tEnd : ℝ) :
    ∃ G, 0 ≤ G ∧ ∀ t, 0 ≤ t → t ≤ tEnd → ‖iteratedDeriv k U t‖ ≤ G := by
  obtain ⟨G, h⟩ := (isCompact_Icc (a := (0 : ℝ)) (b := tEnd)).exists_bound_of_continuousOn
    (hU.continuous_iteratedDeriv k le_rfl).continuousOn
  exact ⟨|G|, abs_nonneg G, fun t h0 h1 => (h t ⟨h0, h1⟩).trans (le_abs_self G)⟩

include P hc in
theorem defect_one (hU : ContDiff ℝ 2 U) (h1 : order1 T = 0) :
    ∃ M, 0 ≤ M ∧ ∀ t dt, 0 ≤ t → 0 ≤ dt → t + dt ≤ tEnd →
      ‖defectEnd T f t dt (U t) (U (t + dt)) (fun j => U (t + T.c j * dt))‖ ≤ M * dt ^ 2 := by
  obtain ⟨M, hM, h⟩ := quadrature 0 (U := U) (by exact_mod_cast hU) tEnd T.n T.b T.c 1 ⟨zero_le_one, le_rfl⟩ hc
  refine ⟨M, hM, fun t dt ht hdt hte => ?_⟩
  have := h t dt ht hdt hte
  rw [← defectEnd_eq P hc ht hdt hte] at this
  have e : ∑ i ∈ range T.n, T.b i = 1 := by rw [order1] at h1; linarith
  simpa [e] using this

omit [NormedSpace ℝ F] in
theorem norm_le_add {x y : F} {r q : ℝ} (h : ‖x - y‖ ≤ r) (hy : ‖y‖ ≤ q) : ‖x‖ ≤ r + q := by
  have := norm_add_le (x - y) y
  rw [sub_add_cancel] at this
  linarith

include P hc in
theorem defect_two (hU : ContDiff ℝ 3 U) (h1 : order1 T = 0) :
    ∃ M G, 0 ≤ M ∧ 0 ≤ G ∧ ∀ t dt, 0 ≤ t → 0 ≤ dt → t + dt ≤ tEnd →
      ‖defectEnd T f t dt (U t) (U (t + dt)) (fun j => U (t + T.c j * dt))‖ ≤ M * dt ^ 3 + |order2 T| * G * dt ^ 2 := by
  obtain ⟨M, hM, h⟩ := quadrature 1 (U := U) (by exact_mod_cast hU) tEnd T.n T.b T.c 1 ⟨zero_le_one, le_rfl⟩ hc
  obtain ⟨G, hG, hg⟩ := bound_deriv 2 (hU.of_le (by norm_num)) tEnd
  refine ⟨M, G, hM, hG, fun t dt ht hdt hte => ?_⟩
  have := h t dt ht hdt hte
  rw [← defectEnd_eq P hc ht hdt hte, sum_range_succ, sum_range_one] at this
  refine norm_le_add this ?_
  have e : ∑ i ∈ range T.n, T.b i = 1 := by rw [order1] at h1; linarith
  have e2 : ∑ i ∈ range T.n, T.b i * T.c i = order2 T + 1 / 2 := by rw [order2]; ring
  have e3 : (dt ^ (0 + 1) * ((Nat.factorial 0 : ℕ) : ℝ)⁻¹ * ((1 : ℝ) ^ (0 + 1) / ((0 : ℕ) + 1) - ∑ j ∈ range T.n, T.b j * T.c j ^ 0)) = 0 := by
    simp [e]
  have e4 : (dt ^ (1 + 1) * ((Nat.factorial 1 : ℕ) : ℝ)⁻¹ * ((1 : ℝ) ^ (1 + 1) / ((1 : ℕ) + 1) - ∑ j ∈ range T.n, T.b j * T.c j ^ 1)) =
      -(order2 T) * dt ^ 2 := by
    norm_num [e2]
    ring
  rw [e3, e4, zero_smul, zero_add, norm_smul, norm_mul, norm_neg, Real.norm_eq_abs, Real.norm_of_nonneg (by positivity)]
  have := hg t ht (by linarith)
  calc _ = |order2 T| * ‖iteratedDeriv 2 U t‖ * dt ^ 2 := by ring
    _ ≤ _ := by gcongr

include P hc in
theorem defect_three (hU : ContDiff ℝ 4 U) (h1 : order1 T = 0) :
    ∃ M G, 0 ≤ M ∧ 0 ≤ G ∧ ∀ t dt, 0 ≤ t → 0 ≤ dt → dt ≤ 1 → t + dt ≤ tEnd →
      ‖defectEnd T f t dt (U t) (U (t + dt)) (fun j => U (t + T.c j * dt))‖ ≤
        M * dt ^ 4 + (|order2 T| + |order3a T|) * G * dt ^ 2 := by
  obtain ⟨M, hM, h⟩ := quadrature 2 (U := U) (by exact_mod_cast hU) tEnd T.n T.b T.c 1 ⟨zero_le_one, le_rfl⟩ hc
  obtain ⟨G, hG, hg⟩ := bound_deriv 2 (hU.of_le (by norm_num)) tEnd
  obtain ⟨G', hG', hg'⟩ := bound_deriv 3 (hU.of_le (by norm_num)) tEnd
  refine ⟨M, G + G', hM, by positivity, fun t dt ht hdt hd1 hte => ?_⟩
  have := h t dt ht hdt hte
  rw [← defectEnd_eq P hc ht hdt hte, sum_range_succ, sum_range_succ, sum_range_one] at this
  refine norm_le_add this ?_
  have e : ∑ i ∈ range T.n, T.b i = 1 := by rw [order1] at h1; linarith
  have e2 : ∑ i ∈ range T.n, T.b i * T.c i = order2 T + 1 / 2 := by rw [order2]; ring
  have e2' : ∑ i ∈ range T.n, T.b i * T.c i ^ 2 = order3a T + 1 / 3 := by rw [order3a]; ring
  have e3 : (dt ^ (0 + 1) * ((Nat.factorial 0 : ℕ) : ℝ)⁻¹ * ((1 : ℝ) ^ (0 + 1) / ((0 : ℕ) + 1) - ∑ j ∈ range T.n, T.b j * T.c j ^ 0)) = 0 := by
    simp [e]
  have e4 : (dt ^ (1 + 1) * ((Nat.factorial 1 : ℕ) : ℝ)⁻¹ * ((1 : ℝ) ^ (1 + 1) / ((1 : ℕ) + 1) - ∑ j ∈ range T.n, T.b j * T.c j ^ 1)) =
      -(order2 T) * dt ^ 2 := by
    norm_num [e2]
    ring
  have e5 : (dt ^ (2 + 1) * ((Nat.factorial 2 : ℕ) : ℝ)⁻¹ * ((1 : ℝ) ^ (2 + 1) / ((2 : ℕ) + 1) - ∑ j ∈ range T.n, T.b j * T.c j ^ 2)) =
      -(order3a T) * (dt ^ 3 / 2) := by
    norm_num [e2', Nat.factorial]
    ring
  rw [e3, e4, e5, zero_smul, zero_add]
  refine (norm_add_le _ _).trans ?_
  rw [norm_smul, norm_mul, norm_neg, Real.norm_eq_abs, Real.norm_of_nonneg (by positivity : 0 ≤ dt ^ 2), norm_smul, norm_mul,
    norm_neg, Real.norm_eq_abs, Real.norm_of_nonneg (by positivity : 0 ≤ dt ^ 3 / 2)]
  have h2 := hg t ht (by linarith)
  have h3 := hg' t ht (by linarith)
  have d3 : dt ^ 3 / 2 ≤ dt ^ 2 := by nlinarith [pow_nonneg hdt 2]
  have i1 : |order2 T| * dt ^ 2 * ‖iteratedDeriv (1 + 1) U t‖ ≤ |order2 T| * dt ^ 2 * G := by gcongr
  have i2 : |order3a T| * (dt ^ 3 / 2) * ‖iteratedDeriv (2 + 1) U t‖ ≤ |order3a T| * dt ^ 2 * G' := by gcongr
  have p1 : 0 ≤ |order2 T| * dt ^ 2 * G' := by positivity
  have p2 : 0 ≤ |order3a T| * dt ^ 2 * G := by positivity
  linarith

include P hT hc in
/-- The weighted sum of the defects of the stages. -/
theorem defect_weighted (hU : ContDiff ℝ 3 U) :
    ∃ M G, 0 ≤ M ∧ 0 ≤ G ∧ ∀ t dt, 0 ≤ t → 0 ≤ dt → t + dt ≤ tEnd →
      ‖∑ i ∈ range T.n, T.b i • defect T f t dt (U t) (fun j => U (t + T.c j * dt)) i‖ ≤
        M * dt ^ 3 + (|order3a T| + |order3b T|) * G * dt ^ 2 := by
  have h : ∀ i : ℕ, ∃ M, 0 ≤ M ∧ (i < T.n → ∀ t dt, 0 ≤ t → 0 ≤ dt → t + dt ≤ tEnd →
      ‖defect T f t dt (U t) (fun j => U (t + T.c j * dt)) i -
        (dt ^ 2 * (T.c i ^ 2 / 2 - ∑ j ∈ range T.n, T.a i j * T.c j)) • iteratedDeriv 2 U t‖ ≤ M * dt ^ 3) := fun i => by
    by_cases hi : i < T.n
    · obtain ⟨M, hM, h⟩ := quadrature 1 (U := U) (by exact_mod_cast hU) tEnd T.n (T.a i) T.c (T.c i) (hc i hi) hc
      refine ⟨M, hM, fun _ t dt ht hdt hte => ?_⟩
      have := h t dt ht hdt hte
      rw [← defect_eq P hc i ht hdt hte, sum_range_succ, sum_range_one] at this
      have e3 : (dt ^ (0 + 1) * ((Nat.factorial 0 : ℕ) : ℝ)⁻¹ * (T.c i ^ (0 + 1) / ((0 : ℕ) + 1) -
          ∑ j ∈ range T.n, T.a i j * T.c j ^ 0)) = 0 := by
        simp [hT.2 i hi]
      have e4 : (dt ^ (1 + 1) * ((Nat.factorial 1 : ℕ) : ℝ)⁻¹ * (T.c i ^ (1 + 1) / ((1 : ℕ) + 1) -
          ∑ j ∈ range T.n, T.a i j * T.c j ^ 1)) = dt ^ 2 * (T.c i ^ 2 / 2 - ∑ j ∈ range T.n, T.a i j * T.c j) := by
        norm_num
      rw [e3, e4, zero_smul, zero_add] at this
      exact this
    · exact ⟨0, le_rfl, fun h => absurd h hi⟩
  choose M hM h using h
  obtain ⟨G, hG, hg⟩ := bound_deriv 2 (hU.of_le (by norm_num)) tEnd
  refine ⟨sizeB T * ∑ i ∈ range T.n, M i, G, mul_nonneg (sizeB_nonneg T) (sum_nonneg fun i _ => hM i), hG,
    fun t dt ht hdt hte => ?_⟩
  have n1 := norm_weighted T.n T.b _ _ fun i hi => h i hi t dt ht hdt hte
  simp only [smul_sub, sum_sub_distrib] at n1
  rw [← sum_mul, ← mul_assoc] at n1
  refine norm_le_add n1 ?_
  simp only [smul_smul]
  rw [← sum_smul]
  have e : ∑ i ∈ range T.n, T.b i * (dt ^ 2 * (T.c i ^ 2 / 2 - ∑ j ∈ range T.n, T.a i j * T.c j)) =
      (order3a T / 2 - order3b T) * dt ^ 2 := by
    have : ∀ i, T.b i * (dt ^ 2 * (T.c i ^ 2 / 2 - ∑ j ∈ range T.n, T.a i j * T.c j)) =
        (T.b i * T.c i ^ 2) * (dt ^ 2 / 2) - (∑ j ∈ range T.n, T.b i * T.a i j * T.c j) * dt ^ 2 := fun i => by
      simp only [mul_assoc (T.b i), ← mul_sum]; ring
    simp only [this]
    rw [sum_sub_distrib, ← sum_mul, ← sum_mul, order3a, order3b]
    ring
  rw [e, norm_smul, norm_mul, Real.norm_eq_abs, Real.norm_of_nonneg (by positivity : 0 ≤ dt ^ 2)]
  have h2 := hg t ht (by linarith)
  have h3 : |order3a T / 2 - order3b T| ≤ |order3a T| + |order3b T| := by
    refine (abs_sub _ _).trans ?_
    rw [abs_div]
    have := abs_nonneg (order3a T)
    norm_num
  calc _ = |order3a T / 2 - order3b T| * ‖iteratedDeriv 2 U t‖ * dt ^ 2 := by ring
    _ ≤ _ := by gcongr

end Defects

/-! ### Convergence -/

section Converge

variable {f : ℝ → F → F} {U : ℝ → F} {S : Set F} {L tEnd : ℝ}

/-- Errors of single steps add up. -/
theorem accumulate {e : ℕ → ℝ} {K d dt tEnd : ℝ} (hK : 0 ≤ K) (hd : 0 ≤ d) (hdt : 0 ≤ dt) (h0 : 0 ≤ e 0)
    (h : ∀ m : ℕ, (m + 1) * dt ≤ tEnd → e (m + 1) ≤ (1 + K * dt) * e m + dt * d) (N : ℕ) (hN : N * dt ≤ tEnd) :
    e N ≤ Real.exp (K * |tEnd|) * (e 0 + |tEnd| * d) := by
  have key := growth (e := e) (K := K * dt) (d := dt * d) (by positivity) (by positivity) N (fun m hm => h m (by
      have : (m + 1 : ℝ) ≤ N := by exact_mod_cast hm
      nlinarith)) h0
  have hNE : N * dt ≤ |tEnd| := hN.trans (le_abs_self _)
  refine key.trans (mul_le_mul (Real.exp_le_exp.2 ?_) ?_ (by positivity) (by positivity))
  · nlinarith
  · nlinarith

/-- The step from the error bounds of single steps to those of a run. -/
theorem small_step {A dt : ℝ} (hA : 0 ≤ A) (hdt : 0 < dt) (h : dt ≤ 1 / (2 * A + 1)) : dt * A ≤ 1 / 2 ∧ dt ≤ 1 := by
  rw [le_div_iff₀ (by positivity)] at h
  constructor <;> nlinarith

/-- One step of a run. -/
theorem run_step (P : Problem f U S L tEnd) {T : Tableau} (hc : Nodes T) {M : ℝ}
    (hM : ∀ t dt, 0 ≤ t → 0 ≤ dt → t + dt ≤ tEnd → ∀ i < T.n,
      ‖defect T f t dt (U t) (fun j => U (t + T.c j * dt)) i‖ ≤ M * dt ^ 2) {dt d : ℝ} (hdt : 0 ≤ dt)
    (hsmall : dt * (sizeA T * L) ≤ 1 / 2) {u : ℕ → F} (hr : Run T f S tEnd dt u) {m : ℕ} (hm : (m + 1) * dt ≤ tEnd)
    (hd : ‖defectEnd T f (m * dt) dt (U (m * dt)) (U (m * dt + dt)) (fun j => U (m * dt + T.c j * dt))‖ ≤ d) :
    ‖u (m + 1) - U ((m + 1 : ℕ) * dt)‖ ≤ (1 + 2 * T.n * (sizeB T * L) * dt) * ‖u m - U (m * dt)‖ +
      (2 * T.n * (sizeB T * L) * M * dt ^ 3 + d) := by
  obtain ⟨s, hs, hS⟩ := hr m hm
  have h0 : (0 : ℝ) ≤ m * dt := by positivity
  have hte : m * dt + dt ≤ tEnd := by linarith
  have := step_error (U := fun j => U (m * dt + T.c j * dt)) (u0 := U (m * dt)) (u1 := U (m * dt + dt)) hs hdt P.nonneg
    (fun j hj => by
      have := hc j hj
      exact P.lip _ (by nlinarith) (by nlinarith) _ (hS j hj) _ (P.mem _ (by nlinarith) (by nlinarith)))
    (hM _ dt h0 hdt hte) hd hsmall
  have e : ((m + 1 : ℕ) : ℝ) * dt = m * dt + dt := by push_cast; ring
  rw [e]
  refine this.trans (le_of_eq ?_)
  ring

/-- C129: every consistent method converges.  The error at any time up to `tEnd` is a multiple of the time step. -/
theorem C129_first (P : Problem f U S L tEnd) (hU : ContDiff ℝ 2 U) (T : Tableau) (hT : T.Accepted) (hc : Nodes T)
    (h1 : order1 T = 0) :
    ∃ C, 0 ≤ C ∧ ∃ dt₀, 0 < dt₀ ∧ ∀ dt, 0 < dt → dt ≤ dt₀ → ∀ u, Run T f S tEnd dt u → ∀ N : ℕ, N * dt ≤ tEnd →
      ‖u N - U (N * dt)‖ ≤ C * (‖u 0 - U 0‖ + dt) := by
  obtain ⟨M, hM, h⟩ := defect_stages P hT hc hU
  obtain ⟨M', hM', h'⟩ := defect_one P hc hU h1
  obtain ⟨K, hK⟩ : ∃ K, K = 2 * T.n * (sizeB T * L) := ⟨_, rfl⟩
  have hA := sizeA_nonneg T
  have hB := sizeB_nonneg T
  have hL := P.nonneg
  have hK0 : 0 ≤ K := by rw [hK]; positivity
  refine ⟨Real.exp (K * |tEnd|) * (1 + |tEnd| * (K * M + M')), by positivity, 1 / (2 * (sizeA T * L) + 1), by positivity,
    fun dt hdt hdt₀ u hr N hN => ?_⟩
  obtain ⟨hsmall, hdt1⟩ := small_step (A := sizeA T * L) (by positivity) hdt hdt₀
  have key := accumulate (e := fun m : ℕ => ‖u m - U (m * dt)‖) (K := K) (d := (K * M + M') * dt) hK0 (by positivity) hdt.le
    (norm_nonneg _) (fun m hm => by
      have h0 : (0 : ℝ) ≤ m * dt := by positivity
      have := run_step P hc h hdt.le hsmall hr hm (h' _ dt h0 hdt.le (by linarith))
      rw [← hK] at this
      refine this.trans (add_le_add le_rfl ?_)
      have : K * M * dt ^ 3 ≤ K * M * dt ^ 2 := by
        refine mul_le_mul_of_nonneg_left ?_ (by positivity)
        nlinarith [pow_nonneg hdt.le 2]
      nlinarith) N hN
  simp only [Nat.cast_zero, zero_mul] at key
  refine key.trans ?_
  rw [mul_assoc (Real.exp _)]
  refine mul_le_mul_of_nonneg_left ?_ (Real.exp_pos _).le
  have n0 := norm_nonneg (u 0 - U 0)
  have : 0 ≤ |tEnd| * (K * M + M') * ‖u 0 - U 0‖ := by positivity
  nlinarith

/-- C129: methods of order two.  The error at any time up to `tEnd` is a multiple of the square of the time step; digits missing
from the table add a multiple of the defect of its second order condition. -/
theorem C129_second (P : Problem f U S L tEnd) (hU : ContDiff ℝ 3 U) (T : Tableau) (hT : T.Accepted) (hc : Nodes T)
    (h1 : order1 T = 0) :
    ∃ C, 0 ≤ C ∧ ∃ dt₀, 0 < dt₀ ∧ ∀ dt, 0 < dt → dt ≤ dt₀ → ∀ u, Run T f S tEnd dt u → ∀ N : ℕ, N * dt ≤ tEnd →
      ‖u N - U (N * dt)‖ ≤ C * (‖u 0 - U 0‖ + dt ^ 2 + |order2 T| * dt) := by
  obtain ⟨M, hM, h⟩ := defect_stages P hT hc (hU.of_le (by norm_num))
  obtain ⟨M', G, hM', hG, h'⟩ := defect_two P hc hU h1
  obtain ⟨K, hK⟩ : ∃ K, K = 2 * T.n * (sizeB T * L) := ⟨_, rfl⟩
  have hA := sizeA_nonneg T
  have hB := sizeB_nonneg T
  have hL := P.nonneg
  have hK0 : 0 ≤ K := by rw [hK]; positivity
  refine ⟨Real.exp (K * |tEnd|) * (1 + |tEnd| * (K * M + M' + G)), by positivity, 1 / (2 * (sizeA T * L) + 1), by positivity,
    fun dt hdt hdt₀ u hr N hN => ?_⟩
  obtain ⟨hsmall, hdt1⟩ := small_step (A := sizeA T * L) (by positivity) hdt hdt₀
  have key := accumulate (e := fun m : ℕ => ‖u m - U (m * dt)‖) (K := K) (d := (K * M + M') * dt ^ 2 + |order2 T| * G * dt)
    hK0 (by positivity) hdt.le (norm_nonneg _) (fun m hm => by
      have h0 : (0 : ℝ) ≤ m * dt := by positivity
      have := run_step P hc h hdt.le hsmall hr hm (h' _ dt h0 hdt.le (by linarith))
      rw [← hK] at this
      refine this.trans (le_of_eq ?_)
      ring) N hN
  simp only [Nat.cast_zero, zero_mul] at key
  refine key.trans ?_
  rw [mul_assoc (Real.exp _)]
  refine mul_le_mul_of_nonneg_left ?_ (Real.exp_pos _).le
  have n0 := norm_nonneg (u 0 - U 0)
  have e3 : 0 ≤ |tEnd| * (K * M + M' + G) * ‖u 0 - U 0‖ := by positivity
  have e4 : 0 ≤ |tEnd| * G * dt ^ 2 := by positivity
  have e5 : 0 ≤ |tEnd| * (K * M + M') * (|order2 T| * dt) := by positivity
  have e6 : 0 ≤ dt ^ 2 + |order2 T| * dt := by positivity
  nlinarith

theorem third_arith {dt L A B M₂ E X R M n G G' M' M'' Y w o1 o2 : ℝ} (hdt : 0 ≤ dt) (hdt1 : dt ≤ 1) (hL : 0 ≤ L) (_hA : 0 ≤ A)
    (hB : 0 ≤ B) (hM₂ : 0 ≤ M₂) (hE0 : 0 ≤ E) (hX0 : 0 ≤ X) (hR0 : 0 ≤ R) (hn : 0 ≤ n) (hG : 0 ≤ G) (hG' : 0 ≤ G')
    (_hM'' : 0 ≤ M'') (bX : X ≤ n * (E + M * dt ^ 2)) (bX2 : X ≤ R * dt) (hY : Y = L * (B * (A * L)) + B * (M₂ * (1 + R)))
    (hw : 0 ≤ w) (h1 : o1 ≤ w) (h2 : o2 ≤ w) :
    E + dt * (L * (B * E + dt * (B * (A * (L * X))) + (M'' * dt ^ 3 + o2 * G' * dt ^ 2))) + dt * (B * (M₂ * (dt + X) * X)) +
        (M' * dt ^ 4 + o1 * G * dt ^ 2) ≤
      (1 + (L * B + n * Y) * dt) * E + dt * ((n * Y * M + L * M'' + M') * dt ^ 3 + w * (G + L * G') * dt) := by
  have hY0 : 0 ≤ Y := by rw [hY]; positivity
  have c2 : M₂ * (dt + X) * X ≤ M₂ * (1 + R) * dt * X := by
    have : M₂ * (dt + X) ≤ M₂ * (1 + R) * dt := by
      calc _ ≤ M₂ * (dt + R * dt) := by gcongr
        _ = _ := by ring
    exact mul_le_mul_of_nonneg_right this hX0
  have c3 : L * (dt * (B * (A * (L * X)))) + B * (M₂ * (dt + X) * X) ≤ Y * dt * X := by
    calc _ ≤ L * (dt * (B * (A * (L * X)))) + B * (M₂ * (1 + R) * dt * X) := by gcongr
      _ = _ := by rw [hY]; ring
  have c4 : Y * dt * X ≤ n * Y * E + n * Y * M * dt ^ 3 := by
    calc _ ≤ Y * dt * (n * (E + M * dt ^ 2)) := by gcongr
      _ = n * Y * E * dt + n * Y * M * dt ^ 3 := by ring
      _ ≤ _ := by
        have : n * Y * E * dt ≤ n * Y * E := mul_le_of_le_one_right (by positivity) hdt1
        linarith
  have c5 : o1 * G * dt ^ 2 ≤ w * G * dt ^ 2 := by gcongr
  have c6 : o2 * G' * dt ^ 2 ≤ w * G' * dt := by
    calc _ ≤ w * G' * dt ^ 2 := by gcongr
      _ ≤ _ := by
        refine mul_le_mul_of_nonneg_left ?_ (by positivity)
        nlinarith
  have c7 : L * (o2 * G' * dt ^ 2) ≤ L * (w * G' * dt) := by gcongr
  have c8 : dt * (L * (B * E + dt * (B * (A * (L * X))) + (M'' * dt ^ 3 + o2 * G' * dt ^ 2)) + B * (M₂ * (dt + X) * X)) ≤
      dt * (L * B * E + (n * Y * E + n * Y * M * dt ^ 3) + L * (M'' * dt ^ 3) + L * (w * G' * dt)) := by
    refine mul_le_mul_of_nonneg_left ?_ hdt
    linarith
  linarith

/-- C129: methods of order three, if the right-hand side is differentiable along the solution with a derivative that changes at
a bounded rate. -/
theorem C129_third (P : Problem f U S L tEnd) (hU : ContDiff ℝ 4 U) (T : Tableau) (hT : T.Accepted) (hc : Nodes T)
    (h1 : order1 T = 0) (M₂ : ℝ) (hM₂ : 0 ≤ M₂) (D : ℝ → F →ₗ[ℝ] F) (hD : ∀ t, 0 ≤ t → t ≤ tEnd → ∀ x, ‖D t x‖ ≤ L * ‖x‖)
    (hf2 : ∀ t s, 0 ≤ t → t ≤ s → s ≤ tEnd → ∀ x ∈ S,
      ‖f s x - f s (U s) - D t (x - U s)‖ ≤ M₂ * (s - t + ‖x - U s‖) * ‖x - U s‖) :
    ∃ C, 0 ≤ C ∧ ∃ dt₀, 0 < dt₀ ∧ ∀ dt, 0 < dt → dt ≤ dt₀ → ∀ u, u 0 = U 0 → Run T f S tEnd dt u → ∀ N : ℕ, N * dt ≤ tEnd →
      ‖u N - U (N * dt)‖ ≤ C * (dt ^ 3 + (|order2 T| + |order3a T| + |order3b T|) * dt) := by
  obtain ⟨C1, hC1, dt₁, hdt₁, H⟩ := C129_first P (hU.of_le (by norm_num)) T hT hc h1
  obtain ⟨M, hM, h⟩ := defect_stages P hT hc (hU.of_le (by norm_num))
  obtain ⟨M', G, hM', hG, h'⟩ := defect_three P hc hU h1
  obtain ⟨M'', G', hM'', hG', h''⟩ := defect_weighted P hT hc (hU.of_le (by norm_num))
  have hA := sizeA_nonneg T
  have hB := sizeB_nonneg T
  have hL := P.nonneg
  obtain ⟨R, hR⟩ : ∃ R, R = 2 * T.n * (C1 + M) := ⟨_, rfl⟩
  have hR0 : 0 ≤ R := by rw [hR]; positivity
  obtain ⟨Y, hY⟩ : ∃ Y, Y = L * (sizeB T * (sizeA T * L)) + sizeB T * (M₂ * (1 + R)) := ⟨_, rfl⟩
  have hY0 : 0 ≤ Y := by rw [hY]; positivity
  obtain ⟨K, hK⟩ : ∃ K, K = L * sizeB T + 2 * T.n * Y := ⟨_, rfl⟩
  have hK0 : 0 ≤ K := by rw [hK]; positivity
  obtain ⟨Q, hQ⟩ : ∃ Q, Q = 2 * T.n * Y * M + L * M'' + M' := ⟨_, rfl⟩
  have hQ0 : 0 ≤ Q := by rw [hQ]; positivity
  obtain ⟨w, hw⟩ : ∃ w, w = |order2 T| + |order3a T| + |order3b T| := ⟨_, rfl⟩
  have hw0 : 0 ≤ w := by rw [hw]; positivity
  refine ⟨Real.exp (K * |tEnd|) * (|tEnd| * (Q + G + L * G')), by positivity, min dt₁ (1 / (2 * (sizeA T * L) + 1)),
    lt_min hdt₁ (by positivity), fun dt hdt hdt₀ u hu hr N hN => ?_⟩
  obtain ⟨hsmall, hdt1⟩ := small_step (A := sizeA T * L) (by positivity) hdt (hdt₀.trans (min_le_right _ _))
  rw [← hw]
  have key := accumulate (e := fun m : ℕ => ‖u m - U (m * dt)‖) (K := K) (d := Q * dt ^ 3 + w * (G + L * G') * dt)
    hK0 (by positivity) hdt.le (norm_nonneg _) (fun m hm => ?_) N hN
  · simp only [Nat.cast_zero, zero_mul, hu, sub_self, norm_zero, zero_add] at key
    refine key.trans ?_
    rw [mul_assoc (Real.exp _)]
    refine mul_le_mul_of_nonneg_left ?_ (Real.exp_pos _).le
    rw [mul_assoc |tEnd|]
    refine mul_le_mul_of_nonneg_left ?_ (abs_nonneg _)
    have e1 : 0 ≤ (G + L * G') * dt ^ 3 := by positivity
    have e2 : 0 ≤ Q * (w * dt) := by positivity
    nlinarith
  · obtain ⟨s, hs, hS⟩ := hr m hm
    have h0 : (0 : ℝ) ≤ m * dt := by positivity
    have hte : m * dt + dt ≤ tEnd := by linarith
    have hin : ∀ j < T.n, (m : ℝ) * dt ≤ m * dt + T.c j * dt ∧ m * dt + T.c j * dt ≤ m * dt + dt := fun j hj => by
      have := hc j hj
      constructor <;> nlinarith
    have hlip : ∀ j < T.n, ‖f (m * dt + T.c j * dt) (s j) - f (m * dt + T.c j * dt) (U (m * dt + T.c j * dt))‖ ≤
        L * ‖s j - U (m * dt + T.c j * dt)‖ := fun j hj =>
      P.lip _ (h0.trans (hin j hj).1) ((hin j hj).2.trans hte) _ (hS j hj) _
        (P.mem _ (h0.trans (hin j hj).1) ((hin j hj).2.trans hte))
    obtain ⟨X, hX⟩ : ∃ X, X = total T s fun j => U (m * dt + T.c j * dt) := ⟨_, rfl⟩
    have hX0 : 0 ≤ X := hX ▸ total_nonneg _ _ _
    obtain ⟨E, hE⟩ : ∃ E, E = ‖u m - U (m * dt)‖ := ⟨_, rfl⟩
    have hE0 : 0 ≤ E := hE ▸ norm_nonneg _
    have bE : E ≤ C1 * dt := by
      have := H dt hdt (hdt₀.trans (min_le_left _ _)) u hr m (by linarith)
      rw [hu, sub_self, norm_zero, zero_add, ← hE] at this
      exact this
    have bX : X ≤ 2 * T.n * (E + M * dt ^ 2) := by
      have := total_le (U := fun j => U (m * dt + T.c j * dt)) (u0 := U (m * dt)) hs hdt.le hlip
        (h _ dt h0 hdt.le hte) hsmall
      rw [← hX, ← hE] at this
      exact this
    have bX2 : X ≤ R * dt := by
      refine bX.trans ?_
      rw [hR]
      have : M * dt ^ 2 ≤ M * dt := mul_le_mul_of_nonneg_left (by nlinarith) hM
      calc _ ≤ 2 * T.n * (C1 * dt + M * dt) := by gcongr
        _ = _ := by ring
    have b := step_error_smooth (U := fun j => U (m * dt + T.c j * dt)) (u0 := U (m * dt)) (u1 := U (m * dt + dt)) hs hdt.le hL
      hlip (D (m * dt)) (hD _ h0 (by linarith)) hM₂ (fun j hj => by
        have := hf2 (m * dt) (m * dt + T.c j * dt) h0 (hin j hj).1 ((hin j hj).2.trans hte) (s j) (hS j hj)
        refine this.trans ?_
        have := (hin j hj).2
        gcongr
        linarith) (h' _ dt h0 hdt.le hdt1 hte) (h'' _ dt h0 hdt.le hte)
    rw [← hX, ← hE] at b
    have e : ((m + 1 : ℕ) : ℝ) * dt = m * dt + dt := by push_cast; ring
    change ‖u (m + 1) - U ((m + 1 : ℕ) * dt)‖ ≤ (1 + K * dt) * ‖u m - U (m * dt)‖ + dt * (Q * dt ^ 3 + w * (G + L * G') * dt)
    rw [e, ← hE]
    refine b.trans ?_
    rw [hK, hQ]
    exact third_arith hdt.le hdt1 hL hA hB hM₂ hE0 hX0 hR0 (by positivity) hG hG' hM'' bX bX2 hY hw0
      (by rw [hw]; linarith [abs_nonneg (order3b T)]) (by rw [hw]; linarith [abs_nonneg (order2 T)])

end Converge

end Verif.Converge
