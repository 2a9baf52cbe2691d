import Verif.Imex.Lemmas
import Mathlib.Analysis.Calculus.MeanValue

/-!
C130: implicit-explicit methods converge with the order of their pair of tables, in a normed space.
-/

namespace Verif.Imex

open Finset Verif.Converge RK

variable {F : Type*} [NormedAddCommGroup F] [NormedSpace ℝ F]

/-- `U` solves `u' = f(t, u) + g(t, u)` up to `tEnd`.  The coefficients of `f` are evaluated at its second argument.  Within `S` both
are Lipschitz continuous at the solution. -/
structure Split (f : ℝ → F → F → F) (g : ℝ → F → F) (U : ℝ → F) (S : Set F) (L tEnd : ℝ) : Prop where
  der : ∀ t, 0 ≤ t → t ≤ tEnd → HasDerivAt U (f t (U t) (U t) + g t (U t)) t
  nonneg : 0 ≤ L
  lipI : ∀ t, 0 ≤ t → t ≤ tEnd → ∀ x ∈ S, ∀ v ∈ S, ‖f t x v - f t (U t) (U t)‖ ≤ L * (‖x - U t‖ + ‖v - U t‖)
  lipE : ∀ t, 0 ≤ t → t ≤ tEnd → ∀ x ∈ S, ‖g t x - g t (U t)‖ ≤ L * ‖x - U t‖

/-- One step: the stages `s`, with coefficients evaluated at `v`, which has the explicit tendencies only. -/
structure Stages (TE TI : Tableau) (f : ℝ → F → F → F) (g : ℝ → F → F) (S : Set F) (t dt : ℝ) (old new : F) (s v : ℕ → F) :
    Prop where
  mem : ∀ i < TI.n, s i ∈ S
  mem' : ∀ i < TI.n, v i ∈ S
  lin : ∀ i < TI.n, v i = old + dt • ∑ j ∈ range TI.n, TE.a i j • g (t + TE.c j * dt) (s j)
  sums : Sums TI.n TI.a TE.a TI.b TE.b dt old new s (fun j => f (t + TI.c j * dt) (s j) (v j)) fun j => g (t + TE.c j * dt) (s j)

/-- Steps of length `dt` up to `tEnd`. -/
def Run (TE TI : Tableau) (f : ℝ → F → F → F) (g : ℝ → F → F) (S : Set F) (tEnd dt : ℝ) (u : ℕ → F) : Prop :=
  ∀ m : ℕ, (m + 1) * dt ≤ tEnd → ∃ s v, Stages TE TI f g S (m * dt) dt (u m) (u (m + 1)) s v

/-! ### The solution -/

section Solution

variable {f : ℝ → F → F → F} {g : ℝ → F → F} {U : ℝ → F} {S : Set F} {L tEnd : ℝ}

theorem mean_value {Φ φ : ℝ → F} {t s C : ℝ} (hts : t ≤ s) (h : ∀ r, t ≤ r → r ≤ s → HasDerivAt Φ (φ r) r)
    (hb : ∀ r, t ≤ r → r ≤ s → ‖φ r‖ ≤ C) : ‖Φ s - Φ t‖ ≤ C * (s - t) :=
  norm_image_sub_le_of_norm_deriv_le_segment' (fun r hr => (h r hr.1 hr.2).hasDerivWithinAt) (fun r hr => hb r hr.1 hr.2.le) s
    ⟨hts, le_rfl⟩

theorem taylor_zero {Φ : ℝ → F} (h : ContDiff ℝ 1 Φ) (tEnd : ℝ) :
    ∃ M, 0 ≤ M ∧ ∀ t s, 0 ≤ t → t ≤ s → s ≤ tEnd → ‖Φ s - Φ t‖ ≤ M * (s - t) := by
  obtain ⟨M, hM, h⟩ := taylor_uniform 0 (U := Φ) (by exact_mod_cast h) tEnd
  exact ⟨M, hM, fun t s h0 h1 h2 => by simpa using h t s h0 h1 h2⟩

theorem taylor_one {Φ : ℝ → F} (h : ContDiff ℝ 2 Φ) (tEnd : ℝ) :
    ∃ M, 0 ≤ M ∧ ∀ t s, 0 ≤ t → t ≤ s → s ≤ tEnd → ‖Φ s - Φ t - (s - t) • deriv Φ t‖ ≤ M * (s - t) ^ 2 := by
  obtain ⟨M, hM, h⟩ := taylor_uniform 1 (U := Φ) (by exact_mod_cast h) tEnd
  refine ⟨M, hM, fun t s h0 h1 h2 => ?_⟩
  have := h t s h0 h1 h2
  rw [sum_range_succ, sum_range_one] at this
  simpa [sub_sub] using this

omit [NormedSpace ℝ F] in
theorem bound_zero {Φ : ℝ → F} (h : Continuous Φ) (tEnd : ℝ) : ∃ G, 0 ≤ G ∧ ∀ t, 0 ≤ t → t ≤ tEnd → ‖Φ t‖ ≤ G := by
  obtain ⟨G, h⟩ := (isCompact_Icc (a := (0 : ℝ)) (b := tEnd)).exists_bound_of_continuousOn h.continuousOn
  exact ⟨|G|, abs_nonneg G, fun t h0 h1 => (h t ⟨h0, h1⟩).trans (le_abs_self G)⟩

/-- What the proofs use of the solution, to first order. -/
structure Smooth1 (f : ℝ → F → F → F) (g : ℝ → F → F) (U : ℝ → F) (tEnd M : ℝ) : Prop where
  nonneg : 0 ≤ M
  boundI : ∀ t, 0 ≤ t → t ≤ tEnd → ‖f t (U t) (U t)‖ ≤ M
  boundE : ∀ t, 0 ≤ t → t ≤ tEnd → ‖g t (U t)‖ ≤ M
  lipI : ∀ t s, 0 ≤ t → t ≤ s → s ≤ tEnd → ‖f s (U s) (U s) - f t (U t) (U t)‖ ≤ M * (s - t)
  lipE : ∀ t s, 0 ≤ t → t ≤ s → s ≤ tEnd → ‖g s (U s) - g t (U t)‖ ≤ M * (s - t)
  lip : ∀ t s, 0 ≤ t → t ≤ s → s ≤ tEnd → ‖U s - U t‖ ≤ M * (s - t)
  taylor : ∀ t s, 0 ≤ t → t ≤ s → s ≤ tEnd → ‖U s - U t - (s - t) • (f t (U t) (U t) + g t (U t))‖ ≤ M * (s - t) ^ 2

theorem Split.smooth1 (P : Split f g U S L tEnd) (hF : ContDiff ℝ 1 fun t => f t (U t) (U t)) (hG : ContDiff ℝ 1 fun t => g t (U t)) :
    ∃ M, Smooth1 f g U tEnd M := by
  obtain ⟨M1, hM1, h1⟩ := taylor_zero hF tEnd
  obtain ⟨M2, hM2, h2⟩ := taylor_zero hG tEnd
  obtain ⟨M3, hM3, h3⟩ := bound_zero hF.continuous tEnd
  obtain ⟨M4, hM4, h4⟩ := bound_zero hG.continuous tEnd
  have up : ∀ {x y z r : ℝ}, x ≤ y * r → 0 ≤ r → y ≤ z → x ≤ z * r := fun h hr hy => h.trans (mul_le_mul_of_nonneg_right hy hr)
  refine ⟨M1 + M2 + M3 + M4, by positivity, fun t h0 h => (h3 t h0 h).trans (by linarith), fun t h0 h => (h4 t h0 h).trans (by linarith),
    fun t s h0 ht hs => up (h1 t s h0 ht hs) (sub_nonneg.2 ht) (by linarith),
    fun t s h0 ht hs => up (h2 t s h0 ht hs) (sub_nonneg.2 ht) (by linarith), fun t s h0 ht hs => ?_, fun t s h0 ht hs => ?_⟩
  · refine up (mean_value (Φ := U) ht (fun r hr hr' => P.der r (h0.trans hr) (hr'.trans hs)) fun r hr hr' =>
      (norm_add_le _ _).trans (add_le_add (h3 r (h0.trans hr) (hr'.trans hs)) (h4 r (h0.trans hr) (hr'.trans hs))))
      (sub_nonneg.2 ht) (by linarith)
  · have hder : ∀ r, t ≤ r → r ≤ s → HasDerivAt (fun r => U r - (r - t) • (f t (U t) (U t) + g t (U t)))
        ((f r (U r) (U r) + g r (U r)) - (1 : ℝ) • (f t (U t) (U t) + g t (U t))) r := fun r hr hr' =>
      (P.der r (h0.trans hr) (hr'.trans hs)).sub (((hasDerivAt_id r).sub_const t).smul_const _)
    have key := mean_value (C := (M1 + M2) * (s - t)) ht hder fun r hr hr' => by
      have i1 := h1 t r h0 hr (hr'.trans hs)
      have i2 := h2 t r h0 hr (hr'.trans hs)
      have e : (f r (U r) (U r) + g r (U r)) - (1 : ℝ) • (f t (U t) (U t) + g t (U t)) =
          (f r (U r) (U r) - f t (U t) (U t)) + (g r (U r) - g t (U t)) := by rw [one_smul]; abel
      rw [e]
      refine (norm_add_le _ _).trans ((add_le_add i1 i2).trans ?_)
      rw [← add_mul]
      exact mul_le_mul_of_nonneg_left (by linarith) (by positivity)
    have e : U s - (s - t) • (f t (U t) (U t) + g t (U t)) - (U t - (t - t) • (f t (U t) (U t) + g t (U t))) =
        U s - U t - (s - t) • (f t (U t) (U t) + g t (U t)) := by rw [sub_self, zero_smul]; abel
    rw [e] at key
    refine key.trans ?_
    have := sq_nonneg (s - t)
    nlinarith

/-- What the proofs use of the solution, to second order. -/
structure Smooth2 (f : ℝ → F → F → F) (g : ℝ → F → F) (U : ℝ → F) (tEnd M : ℝ) (A B : ℝ → F) : Prop where
  nonneg : 0 ≤ M
  taylorI : ∀ t s, 0 ≤ t → t ≤ s → s ≤ tEnd → ‖f s (U s) (U s) - f t (U t) (U t) - (s - t) • A t‖ ≤ M * (s - t) ^ 2
  taylorE : ∀ t s, 0 ≤ t → t ≤ s → s ≤ tEnd → ‖g s (U s) - g t (U t) - (s - t) • B t‖ ≤ M * (s - t) ^ 2
  taylor : ∀ t s, 0 ≤ t → t ≤ s → s ≤ tEnd →
    ‖U s - U t - (s - t) • (f t (U t) (U t) + g t (U t)) - ((s - t) ^ 2 / 2) • (A t + B t)‖ ≤ M * (s - t) ^ 3

theorem Split.smooth2 (P : Split f g U S L tEnd) (hF : ContDiff ℝ 2 fun t => f t (U t) (U t)) (hG : ContDiff ℝ 2 fun t => g t (U t)) :
    ∃ M A B, Smooth2 f g U tEnd M A B := by
  obtain ⟨M1, hM1, h1⟩ := taylor_one hF tEnd
  obtain ⟨M2, hM2, h2⟩ := taylor_one hG tEnd
  obtain ⟨A, hA⟩ : ∃ A, A = deriv fun t => f t (U t) (U t) := ⟨_, rfl⟩
  obtain ⟨B, hB⟩ : ∃ B, B = deriv fun t => g t (U t) := ⟨_, rfl⟩
  simp only [← hA] at h1
  simp only [← hB] at h2
  have up : ∀ {x y z r : ℝ}, x ≤ y * r → 0 ≤ r → y ≤ z → x ≤ z * r := fun h hr hy => h.trans (mul_le_mul_of_nonneg_right hy hr)
  refine ⟨M1 + M2, A, B, by positivity, fun t s h0 ht hs => up (h1 t s h0 ht hs) (sq_nonneg _) (by linarith),
    fun t s h0 ht hs => up (h2 t s h0 ht hs) (sq_nonneg _) (by linarith), fun t s h0 ht hs => ?_⟩
  have hder : ∀ r, t ≤ r → r ≤ s → HasDerivAt
      (fun r => U r - (r - t) • (f t (U t) (U t) + g t (U t)) - ((r - t) ^ 2 / 2) • (A t + B t))
      ((f r (U r) (U r) + g r (U r)) - (1 : ℝ) • (f t (U t) (U t) + g t (U t)) - (r - t) • (A t + B t)) r := fun r hr hr' => by
    have hq : HasDerivAt (fun r : ℝ => (r - t) ^ 2 / 2) (r - t) r := by
      have := (((hasDerivAt_id r).sub_const t).pow 2).div_const 2
      simpa using this
    exact ((P.der r (h0.trans hr) (hr'.trans hs)).sub (((hasDerivAt_id r).sub_const t).smul_const _)).sub (hq.smul_const _)
  have key := mean_value (C := (M1 + M2) * (s - t) ^ 2) ht hder fun r hr hr' => by
    have i1 := h1 t r h0 hr (hr'.trans hs)
    have i2 := h2 t r h0 hr (hr'.trans hs)
    have e : (f r (U r) (U r) + g r (U r)) - (1 : ℝ) • (f t (U t) (U t) + g t (U t)) - (r - t) • (A t + B t) =
        (f r (U r) (U r) - f t (U t) (U t) - (r - t) • A t) + (g r (U r) - g t (U t) - (r - t) • B t) := by
      rw [one_smul, smul_add]; abel
    rw [e]
    refine (norm_add_le _ _).trans ((add_le_add i1 i2).trans ?_)
    rw [← add_mul]
    have : 0 ≤ r - t := sub_nonneg.2 hr
    gcongr
  have e : U s - (s - t) • (f t (U t) (U t) + g t (U t)) - ((s - t) ^ 2 / 2) • (A t + B t) -
      (U t - (t - t) • (f t (U t) (U t) + g t (U t)) - ((t - t) ^ 2 / 2) • (A t + B t)) =
      U s - U t - (s - t) • (f t (U t) (U t) + g t (U t)) - ((s - t) ^ 2 / 2) • (A t + B t) := by
    rw [sub_self]; norm_num; abel
  rw [e] at key
  refine key.trans (le_of_eq ?_)
  ring

end Solution

/-! ### Tendencies within a step -/

section Step

variable {f : ℝ → F → F → F} {g : ℝ → F → F} {U : ℝ → F} {S : Set F} {L tEnd M : ℝ} {TE TI : Tableau}

/-- The tendencies of the stages are close to those of the solution. -/
theorem tendencies (P : Split f g U S L tEnd) (hM : Smooth1 f g U tEnd M) (hn : TE.n = TI.n) (hcE : Nodes TE) (hcI : Nodes TI) :
    ∃ κ, 0 ≤ κ ∧ ∀ t dt, 0 ≤ t → 0 ≤ dt → dt ≤ 1 → t + dt ≤ tEnd → ∀ old new s v, Stages TE TI f g S t dt old new s v →
      (∀ j < TI.n, ‖f (t + TI.c j * dt) (s j) (v j) - f t (U t) (U t)‖ ≤ κ * (dt + spread TI.n s (U t) + ‖old - U t‖)) ∧
      ∀ j < TI.n, ‖g (t + TE.c j * dt) (s j) - g t (U t)‖ ≤ κ * (dt + spread TI.n s (U t) + ‖old - U t‖) := by
  have hL := P.nonneg
  have hM0 := hM.nonneg
  have hA := weights_nonneg TI.n TI.a TE.a
  obtain ⟨A, hAe⟩ : ∃ A, A = weights TI.n TI.a TE.a := ⟨_, rfl⟩
  rw [← hAe] at hA
  obtain ⟨k, hk⟩ : ∃ k, k = L * (1 + M) + M := ⟨_, rfl⟩
  have hk0 : 0 ≤ k := by rw [hk]; positivity
  refine ⟨L * (2 + 2 * M + A * (k + M)) + M, by positivity, fun t dt ht hdt hdt1 hte old new s v h => ?_⟩
  obtain ⟨X, hX⟩ : ∃ X, X = spread TI.n s (U t) := ⟨_, rfl⟩
  obtain ⟨E, hE⟩ : ∃ E, E = ‖old - U t‖ := ⟨_, rfl⟩
  have hX0 : 0 ≤ X := hX ▸ spread_nonneg _ _ _
  have hE0 : 0 ≤ E := hE ▸ norm_nonneg _
  have hin : ∀ c : ℝ, 0 ≤ c ∧ c ≤ 1 → t ≤ t + c * dt ∧ t + c * dt ≤ tEnd ∧ c * dt ≤ dt := fun c hc =>
    ⟨by nlinarith, by nlinarith, by nlinarith⟩
  have near : ∀ c : ℝ, 0 ≤ c ∧ c ≤ 1 → ∀ x : F, ‖x - U (t + c * dt)‖ ≤ ‖x - U t‖ + M * dt := fun c hc x => by
    obtain ⟨i1, i2, i3⟩ := hin c hc
    have := hM.lip t _ ht i1 i2
    rw [add_sub_cancel_left] at this
    have e : x - U (t + c * dt) = (x - U t) - (U (t + c * dt) - U t) := by abel
    rw [e]
    refine (_root_.norm_sub_le _ _).trans (add_le_add le_rfl (this.trans ?_))
    exact mul_le_mul_of_nonneg_left i3 hM0
  have hs : ∀ j < TI.n, ‖s j - U t‖ ≤ X := fun j hj => hX ▸ le_spread hj s (U t)
  have hq : ∀ j < TI.n, ‖g (t + TE.c j * dt) (s j) - g t (U t)‖ ≤ k * (dt + X + E) := fun j hj => by
    have hc := hcE j (hn ▸ hj)
    obtain ⟨i1, i2, i3⟩ := hin _ hc
    have b1 := P.lipE _ (ht.trans i1) i2 _ (h.mem j hj)
    have b2 := hM.lipE t _ ht i1 i2
    rw [add_sub_cancel_left] at b2
    have b3 := near _ hc (s j)
    have e : g (t + TE.c j * dt) (s j) - g t (U t) = (g (t + TE.c j * dt) (s j) - g (t + TE.c j * dt) (U (t + TE.c j * dt))) +
        (g (t + TE.c j * dt) (U (t + TE.c j * dt)) - g t (U t)) := by abel
    rw [e]
    refine (norm_add_le _ _).trans ((add_le_add b1 b2).trans ?_)
    have b4 : L * ‖s j - U (t + TE.c j * dt)‖ ≤ L * (X + M * dt) := mul_le_mul_of_nonneg_left (by linarith [hs j hj]) hL
    have b5 : M * (TE.c j * dt) ≤ M * dt := mul_le_mul_of_nonneg_left i3 hM0
    have b6 : 0 ≤ (L + M) * E + (L * M + M) * X + L * dt + L * M * E := by positivity
    rw [hk]
    nlinarith
  have hkt : k ≤ L * (2 + 2 * M + A * (k + M)) + M := by
    have : 0 ≤ L * (1 + M + A * (k + M)) := by positivity
    rw [hk] at this ⊢
    linarith
  rw [← hX, ← hE]
  refine ⟨fun j hj => ?_, fun j hj => (hq j hj).trans (mul_le_mul_of_nonneg_right hkt (by positivity))⟩
  have hv : ‖v j - U t‖ ≤ E + A * ((k + M) * (dt + X + E)) := by
    have e : v j - U t = (old - U t) + dt • ∑ l ∈ range TI.n, TE.a j l • g (t + TE.c l * dt) (s l) := by
      rw [h.lin j hj]; abel
    rw [e, hE]
    refine (norm_add_le _ _).trans (add_le_add le_rfl ?_)
    rw [norm_smul, Real.norm_of_nonneg hdt]
    have b1 := norm_two TI.n (TI.a j) (TE.a j) (fun _ => (0 : F)) (fun l => g (t + TE.c l * dt) (s l)) (M := k * (dt + X + E) + M)
      (fun _ _ => by rw [norm_zero]; positivity) fun l hl => norm_le_add (hq l hl) (hM.boundE t ht (by linarith))
    simp only [smul_zero, sum_const_zero, zero_add] at b1
    have b2 : weight TI.n (TI.a j) (TE.a j) * (k * (dt + X + E) + M) ≤ A * (k * (dt + X + E) + M) := by
      rw [hAe]
      exact mul_le_mul_of_nonneg_right (weight_le hj _ _) (by positivity)
    have b3 : dt * (k * (dt + X + E)) ≤ k * (dt + X + E) := mul_le_of_le_one_left (by positivity) hdt1
    rw [← hE]
    calc _ ≤ dt * (A * (k * (dt + X + E) + M)) := mul_le_mul_of_nonneg_left (b1.trans b2) hdt
      _ = A * (dt * (k * (dt + X + E)) + M * dt) := by ring
      _ ≤ A * (k * (dt + X + E) + M * (dt + X + E)) := by
        have : M * dt ≤ M * (dt + X + E) := mul_le_mul_of_nonneg_left (by linarith) hM0
        gcongr
      _ = _ := by ring
  have hc := hcI j hj
  obtain ⟨i1, i2, i3⟩ := hin _ hc
  have b1 := P.lipI _ (ht.trans i1) i2 _ (h.mem j hj) _ (h.mem' j hj)
  have b2 := hM.lipI t _ ht i1 i2
  rw [add_sub_cancel_left] at b2
  have b3 := near _ hc (s j)
  have b3' := near _ hc (v j)
  have e : f (t + TI.c j * dt) (s j) (v j) - f t (U t) (U t) =
      (f (t + TI.c j * dt) (s j) (v j) - f (t + TI.c j * dt) (U (t + TI.c j * dt)) (U (t + TI.c j * dt))) +
      (f (t + TI.c j * dt) (U (t + TI.c j * dt)) (U (t + TI.c j * dt)) - f t (U t) (U t)) := by abel
  rw [e]
  refine (norm_add_le _ _).trans ((add_le_add b1 b2).trans ?_)
  have b4 : ‖s j - U (t + TI.c j * dt)‖ + ‖v j - U (t + TI.c j * dt)‖ ≤ (2 + 2 * M + A * (k + M)) * (dt + X + E) := by
    have := hs j hj
    have : 0 ≤ 2 * M * (X + E) := by positivity
    nlinarith
  have b5 : M * (TI.c j * dt) ≤ M * (dt + X + E) := mul_le_mul_of_nonneg_left (by linarith) hM0
  calc _ ≤ L * ((2 + 2 * M + A * (k + M)) * (dt + X + E)) + M * (dt + X + E) := add_le_add (mul_le_mul_of_nonneg_left b4 hL) b5
    _ = _ := by ring

/-- What the proofs use of a step. -/
theorem steps (P : Split f g U S L tEnd) (hM : Smooth1 f g U tEnd M) (hn : TE.n = TI.n) (hcE : Nodes TE) (hcI : Nodes TI) :
    ∃ κ Z dt₀, 0 ≤ κ ∧ 0 ≤ Z ∧ 0 < dt₀ ∧ dt₀ ≤ 1 ∧ ∀ t dt, 0 ≤ t → 0 < dt → dt ≤ dt₀ → t + dt ≤ tEnd →
      ∀ old new s v, Stages TE TI f g S t dt old new s v →
      spread TI.n s (U t) ≤ Z * (dt + ‖old - U t‖) ∧
      (∀ j < TI.n, ‖f (t + TI.c j * dt) (s j) (v j) - f t (U t) (U t)‖ ≤ κ * (dt + spread TI.n s (U t) + ‖old - U t‖)) ∧
      ∀ j < TI.n, ‖g (t + TE.c j * dt) (s j) - g t (U t)‖ ≤ κ * (dt + spread TI.n s (U t) + ‖old - U t‖) := by
  obtain ⟨κ, hκ, h⟩ := tendencies P hM hn hcE hcI
  have hA := weights_nonneg TI.n TI.a TE.a
  have hM0 := hM.nonneg
  obtain ⟨A, hAe⟩ : ∃ A, A = weights TI.n TI.a TE.a := ⟨_, rfl⟩
  rw [← hAe] at hA
  refine ⟨κ, 2 * (TI.n * (1 + A * κ)) + 2 * (TI.n * (A * (κ + M))), 1 / (2 * (TI.n * (A * κ)) + 1), hκ, by positivity,
    by positivity, ?_, fun t dt ht hdt hle hte old new s v hs => ?_⟩
  · rw [div_le_one (by positivity)]
    have : 0 ≤ 2 * (TI.n * (A * κ)) := by positivity
    linarith
  · obtain ⟨hsmall, hdt1⟩ := small_step (A := TI.n * (A * κ)) (by positivity) hdt hle
    obtain ⟨hp, hq⟩ := h t dt ht hdt.le hdt1 hte old new s v hs
    refine ⟨?_, hp, hq⟩
    have hte' : t ≤ tEnd := by linarith
    have := spread_le hs.sums hdt.le hκ hp hq hdt1 (hM.boundI t ht hte') (hM.boundE t ht hte') (by rw [← hAe]; exact hsmall)
    rw [← hAe] at this
    refine this.trans ?_
    have n0 := norm_nonneg (old - U t)
    have : 0 ≤ 2 * (TI.n * (1 + A * κ)) * dt := by positivity
    have : 0 ≤ 2 * (TI.n * (A * (κ + M))) * ‖old - U t‖ := by positivity
    nlinarith

end Step

/-! ### Convergence -/

section Converge

variable {f : ℝ → F → F → F} {g : ℝ → F → F} {U : ℝ → F} {S : Set F} {L tEnd : ℝ} {TE TI : Tableau}

/-- C130: every pair of consistent tables converges, also if the coefficients of the implicit terms are evaluated at the explicit
part of a stage. -/
theorem C130_first (P : Split f g U S L tEnd) (hF : ContDiff ℝ 1 fun t => f t (U t) (U t)) (hG : ContDiff ℝ 1 fun t => g t (U t))
    (hn : TE.n = TI.n) (hcE : Nodes TE) (hcI : Nodes TI) (h1 : order1 TI = 0) (h1' : order1 TE = 0) :
    ∃ C, 0 ≤ C ∧ ∃ dt₀, 0 < dt₀ ∧ ∀ dt, 0 < dt → dt ≤ dt₀ → ∀ u, Run TE TI f g S tEnd dt u → ∀ N : ℕ, N * dt ≤ tEnd →
      ‖u N - U (N * dt)‖ ≤ C * (‖u 0 - U 0‖ + dt) := by
  obtain ⟨M, hM⟩ := P.smooth1 hF hG
  have hM0 := hM.nonneg
  obtain ⟨κ, Z, dt₀, hκ, hZ, hdt₀, hdt₁, H⟩ := steps P hM hn hcE hcI
  have hB := weight_nonneg TI.n TI.b TE.b
  obtain ⟨K, hK⟩ : ∃ K, K = weight TI.n TI.b TE.b * (κ * (1 + Z)) := ⟨_, rfl⟩
  have hK0 : 0 ≤ K := by rw [hK]; positivity
  refine ⟨Real.exp (K * |tEnd|) * (1 + |tEnd| * (K + M)), by positivity, dt₀, hdt₀, fun dt hdt hle u hr N hN => ?_⟩
  have key := accumulate (e := fun m : ℕ => ‖u m - U (m * dt)‖) (K := K) (d := (K + M) * dt) hK0 (by positivity) hdt.le
    (norm_nonneg _) (fun m hm => by
      have h0 : (0 : ℝ) ≤ m * dt := by positivity
      have hte : m * dt + dt ≤ tEnd := by linarith
      obtain ⟨s, v, hs⟩ := hr m hm
      obtain ⟨hX, hp, hq⟩ := H _ dt h0 hdt hle hte _ _ s v hs
      have b := step_first hs.sums hdt.le hp hq (by rw [order1] at h1; linarith)
        (by rw [order1, hn] at h1'; linarith) (U (m * dt + dt))
      have b2 := hM.taylor (m * dt) (m * dt + dt) h0 (by linarith) hte
      rw [add_sub_cancel_left] at b2
      have e : ((m + 1 : ℕ) : ℝ) * dt = m * dt + dt := by push_cast; ring
      change ‖u (m + 1) - U ((m + 1 : ℕ) * dt)‖ ≤ (1 + K * dt) * ‖u m - U (m * dt)‖ + dt * ((K + M) * dt)
      rw [e]
      have n0 := norm_nonneg (u m - U (m * dt))
      have b3 : weight TI.n TI.b TE.b * (κ * (dt + spread TI.n s (U (m * dt)) + ‖u m - U (m * dt)‖)) ≤
          K * (dt + ‖u m - U (m * dt)‖) := by
        rw [hK, mul_assoc, mul_assoc]
        refine mul_le_mul_of_nonneg_left (mul_le_mul_of_nonneg_left ?_ hκ) hB
        linarith
      have b4 := mul_le_mul_of_nonneg_left b3 hdt.le
      linarith) N hN
  simp only [Nat.cast_zero, zero_mul] at key
  refine key.trans ?_
  rw [mul_assoc (Real.exp _)]
  refine mul_le_mul_of_nonneg_left ?_ (Real.exp_pos _).le
  have n0 := norm_nonneg (u 0 - U 0)
  have : 0 ≤ |tEnd| * (K + M) * ‖u 0 - U 0‖ := by positivity
  nlinarith

/-- The conditions of order two for a pair of tables. -/
structure Paired (TE TI : Tableau) : Prop where
  stages : TE.n = TI.n
  rowI : ∀ i < TI.n, ∑ j ∈ range TI.n, TI.a i j = TI.c i
  rowE : ∀ i < TI.n, ∑ j ∈ range TI.n, TE.a i j = TE.c i
  nodesI : Nodes TI
  nodesE : Nodes TE
  sumI : ∑ j ∈ range TI.n, TI.b j = 1
  sumE : ∑ j ∈ range TI.n, TE.b j = 1
  secondII : ∑ j ∈ range TI.n, TI.b j * TI.c j = 1 / 2
  secondIE : ∑ j ∈ range TI.n, TI.b j * TE.c j = 1 / 2
  secondEI : ∑ j ∈ range TI.n, TE.b j * TI.c j = 1 / 2
  secondEE : ∑ j ∈ range TI.n, TE.b j * TE.c j = 1 / 2

omit [NormedSpace ℝ F] in
theorem remainder {x d y z w : F} {r1 r2 r3 : ℝ} (h1 : ‖x - d - y‖ ≤ r1) (h2 : ‖d - z‖ ≤ r2) (h3 : ‖w - y‖ ≤ r3) :
    ‖x - z - w‖ ≤ r1 + r2 + r3 := by
  have e : x - z - w = (x - d - y) + (d - z) - (w - y) := by abel
  rw [e]
  exact (_root_.norm_sub_le _ _).trans (add_le_add ((norm_add_le _ _).trans (add_le_add h1 h2)) h3)

theorem remainder_le {x d P' z H u0 u1 y : F} {Δ : F →ₗ[ℝ] F} {τ dt E Y C1 M M' M₂ : ℝ} (hdt : 0 ≤ dt) (hL : 0 ≤ L) (hM : 0 ≤ M)
    (hM' : 0 ≤ M') (hM₂ : 0 ≤ M₂) (hY : 0 ≤ Y) (_hC1 : 0 ≤ C1) (hE : 0 ≤ E) (hΔ : ∀ x, ‖Δ x‖ ≤ L * ‖x‖) (h0 : 0 ≤ τ) (hτ : τ ≤ dt)
    (near : ‖y - u1‖ ≤ Y * (dt + E)) (bE : E ≤ C1 * dt) (h1 : ‖x - d - Δ (y - u1)‖ ≤ M₂ * (τ + ‖y - u1‖) * ‖y - u1‖)
    (h2 : ‖d - z - τ • P'‖ ≤ M' * τ ^ 2) (h3 : ‖u1 - u0 - τ • H‖ ≤ M * τ ^ 2) :
    ‖x - (z + τ • P' + Δ (y - u0 - τ • H))‖ ≤ (M₂ * (1 + Y * (1 + C1)) * Y + M' + L * M) * (dt * (dt + E)) := by
  have i5 : τ ^ 2 ≤ dt * (dt + E) := by
    rw [sq]
    exact mul_le_mul hτ (by linarith) h0 hdt
  have n2 : Y * (dt + E) ≤ Y * (1 + C1) * dt := by
    calc _ ≤ Y * (dt + C1 * dt) := by gcongr
      _ = _ := by ring
  have b1 : ‖x - d - Δ (y - u1)‖ ≤ M₂ * (1 + Y * (1 + C1)) * Y * (dt * (dt + E)) := by
    refine h1.trans ?_
    have := near.trans n2
    calc _ ≤ M₂ * (dt + Y * (1 + C1) * dt) * (Y * (dt + E)) := by gcongr
      _ = _ := by ring
  have b2 : ‖d - z - τ • P'‖ ≤ M' * (dt * (dt + E)) := h2.trans (mul_le_mul_of_nonneg_left i5 hM')
  have b3 : ‖Δ (y - u0 - τ • H) - Δ (y - u1)‖ ≤ L * M * (dt * (dt + E)) := by
    rw [← map_sub]
    refine (hΔ _).trans ?_
    have e : y - u0 - τ • H - (y - u1) = u1 - u0 - τ • H := by abel
    rw [e, mul_assoc]
    exact mul_le_mul_of_nonneg_left (h3.trans (mul_le_mul_of_nonneg_left i5 hM)) hL
  rw [sub_sub] at b2
  have := remainder b1 b2 b3
  rw [← sub_sub]
  refine this.trans (le_of_eq ?_)
  ring

/-- C130: pairs of order two. -/
theorem C130_second (P : Split f g U S L tEnd) (hF : ContDiff ℝ 2 fun t => f t (U t) (U t)) (hG : ContDiff ℝ 2 fun t => g t (U t))
    (hT : Paired TE TI) (M₂ : ℝ) (hM₂ : 0 ≤ M₂) (D D' : ℝ → F →ₗ[ℝ] F)
    (hD : ∀ t, 0 ≤ t → t ≤ tEnd → ∀ x, ‖D t x‖ ≤ L * ‖x‖) (hD' : ∀ t, 0 ≤ t → t ≤ tEnd → ∀ x, ‖D' t x‖ ≤ L * ‖x‖)
    (hf2 : ∀ t s, 0 ≤ t → t ≤ s → s ≤ tEnd → ∀ x ∈ S, ∀ v ∈ S,
      ‖f s x v - f s (U s) (U s) - D t (x - U s)‖ ≤ M₂ * (s - t + ‖x - U s‖) * ‖x - U s‖)
    (hg2 : ∀ t s, 0 ≤ t → t ≤ s → s ≤ tEnd → ∀ x ∈ S,
      ‖g s x - g s (U s) - D' t (x - U s)‖ ≤ M₂ * (s - t + ‖x - U s‖) * ‖x - U s‖) :
    ∃ C, 0 ≤ C ∧ ∃ dt₀, 0 < dt₀ ∧ ∀ dt, 0 < dt → dt ≤ dt₀ → ∀ u, u 0 = U 0 → Run TE TI f g S tEnd dt u → ∀ N : ℕ, N * dt ≤ tEnd →
      ‖u N - U (N * dt)‖ ≤ C * dt ^ 2 := by
  have hL := P.nonneg
  obtain ⟨C1, hC1, dt₁, hdt₁, H1⟩ := C130_first (TE := TE) (TI := TI) P (hF.of_le (by norm_num)) (hG.of_le (by norm_num)) hT.stages
    hT.nodesE hT.nodesI (by rw [order1, hT.sumI, sub_self]) (by rw [order1, hT.stages, hT.sumE, sub_self])
  obtain ⟨M, hM⟩ := P.smooth1 (hF.of_le (by norm_num)) (hG.of_le (by norm_num))
  obtain ⟨M', A', B', hM'⟩ := P.smooth2 hF hG
  have hM0 := hM.nonneg
  have hM0' := hM'.nonneg
  obtain ⟨κ, Z, dt₀, hκ, hZ, hdt₀, hdt1, H⟩ := steps P hM hT.stages hT.nodesE hT.nodesI
  have hB := weight_nonneg TI.n TI.b TE.b
  have hA := weights_nonneg TI.n TI.a TE.a
  obtain ⟨Y, hY⟩ : ∃ Y, Y = Z + M := ⟨_, rfl⟩
  have hY0 : 0 ≤ Y := by rw [hY]; positivity
  obtain ⟨ρ, hρ⟩ : ∃ ρ, ρ = M₂ * (1 + Y * (1 + C1)) * Y + M' + L * M := ⟨_, rfl⟩
  have hρ0 : 0 ≤ ρ := by rw [hρ]; positivity
  obtain ⟨Q, hQ⟩ : ∃ Q, Q = weight TI.n TI.b TE.b * (L * (weights TI.n TI.a TE.a * (κ * (1 + Z))) + ρ) := ⟨_, rfl⟩
  have hQ0 : 0 ≤ Q := by rw [hQ]; positivity
  refine ⟨Real.exp ((2 * L + Q) * |tEnd|) * (|tEnd| * (Q + M')), by positivity, min dt₁ dt₀, lt_min hdt₁ hdt₀,
    fun dt hdt hle u hu hr N hN => ?_⟩
  have hle0 : dt ≤ dt₀ := hle.trans (min_le_right _ _)
  have hdtle1 : dt ≤ 1 := hle0.trans hdt1
  have key := accumulate (e := fun m : ℕ => ‖u m - U (m * dt)‖) (K := 2 * L + Q) (d := (Q + M') * dt ^ 2) (by positivity)
    (by positivity) hdt.le (norm_nonneg _) (fun m hm => ?_) N hN
  · simp only [Nat.cast_zero, zero_mul, hu, sub_self, norm_zero, zero_add] at key
    refine key.trans (le_of_eq ?_)
    ring
  · have h0 : (0 : ℝ) ≤ m * dt := by positivity
    have hte : m * dt + dt ≤ tEnd := by linarith
    obtain ⟨t, ht⟩ : ∃ t : ℝ, t = m * dt := ⟨_, rfl⟩
    obtain ⟨s, v, hs⟩ := hr m hm
    have bE := H1 dt hdt (hle.trans (min_le_left _ _)) u hr m (by linarith)
    rw [hu, sub_self, norm_zero, zero_add] at bE
    change ‖u (m + 1) - U ((m + 1 : ℕ) * dt)‖ ≤ (1 + (2 * L + Q) * dt) * ‖u m - U (m * dt)‖ + dt * ((Q + M') * dt ^ 2)
    have e : ((m + 1 : ℕ) : ℝ) * dt = m * dt + dt := by push_cast; ring
    rw [e]
    rw [← ht] at hs bE h0 hte ⊢
    obtain ⟨hX, hp, hq⟩ := H _ dt h0 hdt hle0 hte _ _ s v hs
    obtain ⟨E, hE⟩ : ∃ E, E = ‖u m - U t‖ := ⟨_, rfl⟩
    have hE0 : 0 ≤ E := hE ▸ norm_nonneg _
    obtain ⟨X, hX'⟩ : ∃ X, X = spread TI.n s (U t) := ⟨_, rfl⟩
    have hX0 : 0 ≤ X := hX' ▸ spread_nonneg _ _ _
    have hsX : ∀ j < TI.n, ‖s j - U t‖ ≤ X := fun j hj => hX' ▸ le_spread hj s (U t)
    rw [← hE] at hp hq hX bE
    rw [← hX'] at hp hq hX
    have hin : ∀ c : ℝ, 0 ≤ c ∧ c ≤ 1 → t ≤ t + c * dt ∧ t + c * dt ≤ tEnd ∧ 0 ≤ c * dt ∧ c * dt ≤ dt := fun c hc =>
      ⟨by nlinarith [hc.1], by nlinarith [hc.2], mul_nonneg hc.1 hdt.le, by nlinarith [hc.2]⟩
    have near : ∀ c : ℝ, 0 ≤ c ∧ c ≤ 1 → ∀ j < TI.n, ‖s j - U (t + c * dt)‖ ≤ Y * (dt + E) := fun c hc j hj => by
      obtain ⟨i1, i2, i3, i4⟩ := hin c hc
      have := hM.lip t _ h0 i1 i2
      rw [add_sub_cancel_left] at this
      have e : s j - U (t + c * dt) = (s j - U t) - (U (t + c * dt) - U t) := by abel
      rw [e, hY]
      refine (_root_.norm_sub_le _ _).trans ((add_le_add (hsX j hj) this).trans ?_)
      have : M * (c * dt) ≤ M * (dt + E) := mul_le_mul_of_nonneg_left (by linarith) hM0
      linarith
    have rem : ∀ (c : ℝ), 0 ≤ c ∧ c ≤ 1 → ∀ j < TI.n, ∀ (x d P' z : F) (Δ : F →ₗ[ℝ] F), (∀ x, ‖Δ x‖ ≤ L * ‖x‖) →
        ‖x - d - Δ (s j - U (t + c * dt))‖ ≤ M₂ * (t + c * dt - t + ‖s j - U (t + c * dt)‖) * ‖s j - U (t + c * dt)‖ →
        ‖d - z - (c * dt) • P'‖ ≤ M' * (c * dt) ^ 2 →
        ‖x - (z + (c * dt) • P' + Δ (s j - U t - (c * dt) • (f t (U t) (U t) + g t (U t))))‖ ≤ ρ * (dt * (dt + E)) := by
      intro c hc j hj x d P' z Δ hΔ h1 h2
      obtain ⟨i1, i2, i3, i4⟩ := hin c hc
      have h3 := hM.taylor t _ h0 i1 i2
      rw [add_sub_cancel_left] at h1 h3
      rw [hρ]
      exact remainder_le hdt.le hL hM0 hM0' hM₂ hY0 hC1 hE0 hΔ i3 i4 (near c hc j hj) bE h1 h2 h3
    have b := step_second hs.sums hdt.le hL (D t) (D' t) (hD t h0 (by linarith)) (hD' t h0 (by linarith))
      (c := TI.c) (c' := TE.c) (P := f t (U t) (U t)) (Q := g t (U t)) (P' := A' t) (Q' := B' t) (u0 := U t)
      (fun j => f (t + TI.c j * dt) (s j) (v j) - (f t (U t) (U t) + (TI.c j * dt) • A' t +
        D t (s j - U t - (TI.c j * dt) • (f t (U t) (U t) + g t (U t)))))
      (fun j => g (t + TE.c j * dt) (s j) - (g t (U t) + (TE.c j * dt) • B' t +
        D' t (s j - U t - (TE.c j * dt) • (f t (U t) (U t) + g t (U t)))))
      (M := κ * ((1 + Z) * (dt + E))) (R := ρ * (dt * (dt + E))) (by positivity)
      (fun j hj => by abel) (fun j hj => by abel)
      (fun j hj => by
        have hc := hT.nodesI j hj
        obtain ⟨i1, i2, i3, i4⟩ := hin _ hc
        have := hM'.taylorI t _ h0 i1 i2
        rw [add_sub_cancel_left] at this
        exact rem _ hc j hj _ _ _ _ (D t) (hD t h0 (by linarith)) (hf2 t _ h0 i1 i2 _ (hs.mem j hj) _ (hs.mem' j hj)) this)
      (fun j hj => by
        have hc := hT.nodesE j (hT.stages ▸ hj)
        obtain ⟨i1, i2, i3, i4⟩ := hin _ hc
        have := hM'.taylorE t _ h0 i1 i2
        rw [add_sub_cancel_left] at this
        exact rem _ hc j hj _ _ _ _ (D' t) (hD' t h0 (by linarith)) (hg2 t _ h0 i1 i2 _ (hs.mem j hj)) this)
      (fun j hj => (hp j hj).trans (mul_le_mul_of_nonneg_left (by linarith) hκ))
      (fun j hj => (hq j hj).trans (mul_le_mul_of_nonneg_left (by linarith) hκ))
      hT.rowI hT.rowE hT.sumI hT.sumE hT.secondII hT.secondIE hT.secondEI hT.secondEE (U (t + dt))
    have b2 := hM'.taylor t (t + dt) h0 (by linarith) hte
    rw [add_sub_cancel_left] at b2
    rw [← hE] at b ⊢
    refine b.trans ((add_le_add le_rfl b2).trans ?_)
    have e2 : dt * (weight TI.n TI.b TE.b * (L * (dt * (weights TI.n TI.a TE.a * (κ * ((1 + Z) * (dt + E))))) + ρ * (dt * (dt + E)))) =
        Q * (dt ^ 2 * (dt + E)) := by rw [hQ]; ring
    rw [e2]
    have : Q * (dt ^ 2 * E) ≤ Q * (dt * E) := by
      refine mul_le_mul_of_nonneg_left ?_ hQ0
      have : dt ^ 2 ≤ dt := pow_le_of_le_one hdt.le hdtle1 two_ne_zero
      exact mul_le_mul_of_nonneg_right this hE0
    linarith

end Converge

end Verif.Imex
