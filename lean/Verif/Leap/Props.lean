import Verif.Leap.Model
import Verif.Converge.Props
import Mathlib.Analysis.SpecialFunctions.ExpDeriv

/-!
C134: convergence of the schemes of the 3D solver.
-/

namespace Verif.Leap

open Finset RK Converge

/-! ### `SSPRK22ALE` -/

/-- Heun's method. -/
noncomputable def heun : Tableau := RK.mk [[0, 0], [1, 0]] [1 / 2, 1 / 2] [0, 1]

theorem heun_accepted : heun.Accepted := by
  constructor
  · intro i hi j hj hij
    simp only [heun, RK.mk, List.length_cons, List.length_nil] at hi hj
    interval_cases i <;> interval_cases j <;> simp_all [heun, RK.mk]
  · intro i hi
    simp only [heun, RK.mk, List.length_cons, List.length_nil] at hi
    interval_cases i <;> simp [heun, RK.mk, vec, sum_range_succ]

theorem heun_nodes : Nodes heun := by
  intro j hj
  simp only [heun, RK.mk, List.length_cons, List.length_nil] at hj
  interval_cases j <;> simp [heun, RK.mk, vec]

theorem heun_one : order1 heun = 0 := by
  simp [order1, heun, RK.mk, vec, sum_range_succ]
  norm_num

theorem heun_two : order2 heun = 0 := by
  simp [order2, heun, RK.mk, vec, sum_range_succ]

section Ale

variable {V W : Type*} [AddCommGroup V] [Module ℝ V] [NormedAddCommGroup W] [NormedSpace ℝ W]

theorem heun_stages {F : Type*} [NormedAddCommGroup F] [NormedSpace ℝ F] {f : ℝ → F → F} {t dt : ℝ} {old mid new : F}
    (h1 : mid = old + dt • f t old) (h2 : new = old + (dt / 2) • f t old + (dt / 2) • f (t + dt) mid) :
    Stages heun f t dt old new (fun i => if i = 0 then old else mid) := by
  constructor
  · intro i hi
    simp only [heun, RK.mk, List.length_cons, List.length_nil] at hi
    interval_cases i <;> simp [heun, RK.mk, vec, sum_range_succ, h1]
  · rw [h2]
    simp [heun, RK.mk, vec, sum_range_succ]
    module

/-- C134: the two-stage scheme converges with second order on a moving mesh.  `M t` and `Minv t` are the mass operator of the mesh of
time `t` and its solver, `L t` is the right-hand side on that mesh with the forcings of that time; the equation is
`(M u)' = L(t, u)`.  The error is that of the vector `M u`. -/
theorem C134_two_stage (M : ℝ → V → W) (Minv : ℝ → W → V) (hM : ∀ t v, M t (Minv t v) = v) (hMi : ∀ t v, Minv t (M t v) = v)
    (L : ℝ → V → W) {U : ℝ → W} {S : Set W} {lip tEnd : ℝ}
    (P : Problem (fun t w => L t (Minv t w)) U S lip tEnd) (hU : ContDiff ℝ 3 U) :
    ∃ C, 0 ≤ C ∧ ∃ dt₀, 0 < dt₀ ∧ ∀ dt, 0 < dt → dt ≤ dt₀ → ∀ s : Ale V W,
      (∀ n : ℕ, (n + 1) * dt ≤ tEnd → M (n * dt) (aleRun dt M Minv L s n).sol ∈ S ∧
        M ((n + 1) * dt) (aleFirst dt M Minv L (n * dt) (aleRun dt M Minv L s n)) ∈ S) →
      ∀ N : ℕ, N * dt ≤ tEnd → ‖M (N * dt) (aleRun dt M Minv L s N).sol - U (N * dt)‖ ≤ C * (‖M 0 s.sol - U 0‖ + dt ^ 2) := by
  obtain ⟨C, hC, dt₀, hdt₀, h⟩ := C129_second P hU heun heun_accepted heun_nodes heun_one
  refine ⟨C, hC, dt₀, hdt₀, fun dt h0 h1 s hs N hN => ?_⟩
  have := h dt h0 h1 (fun n => M (n * dt) (aleRun dt M Minv L s n).sol) (fun m hm => ?_) N hN
  · simpa [heun_two, aleRun] using this
  · have e : ((m + 1 : ℕ) : ℝ) * dt = m * dt + dt := by push_cast; ring
    have e' : ((m : ℝ) + 1) * dt = m * dt + dt := by ring
    have hm' := hs m hm
    rw [e'] at hm'
    refine ⟨_, heun_stages (mid := M (m * dt + dt) (aleFirst dt M Minv L (m * dt) (aleRun dt M Minv L s m))) ?_ ?_, ?_⟩
    · simp [aleFirst, Ale.prep1, Ale.solve, hM, hMi, aleNodes, vec]
    · simp only [e]
      simp only [aleRun, aleAt, aleFirst, Ale.advance, Ale.prep1, Ale.prep2, Ale.solve, hM, hMi, aleNodes, vec]
      simp only [List.getD_cons_zero, List.getD_cons_succ, zero_mul, one_mul, add_zero]
      module
    · intro i _
      by_cases hi : i = 0
      · simpa [hi] using hm'.1
      · simpa [hi] using hm'.2

end Ale

section Fixed

variable {V W : Type*} [NormedAddCommGroup V] [NormedSpace ℝ V] [AddCommGroup W] [Module ℝ W]

/-- C134: on a fixed mesh the error is that of the solution. -/
theorem C134_two_stage_fixed (M : V →ₗ[ℝ] W) (Minv : W →ₗ[ℝ] V) (hM : ∀ v, Minv (M v) = v) (L : ℝ → V → W) {U : ℝ → V} {S : Set V}
    {lip tEnd : ℝ} (P : Problem (fun t v => Minv (L t v)) U S lip tEnd) (hU : ContDiff ℝ 3 U) :
    ∃ C, 0 ≤ C ∧ ∃ dt₀, 0 < dt₀ ∧ ∀ dt, 0 < dt → dt ≤ dt₀ → ∀ s : Ale V W,
      (∀ n : ℕ, (n + 1) * dt ≤ tEnd → (aleRun dt (fun _ => M) (fun _ => Minv) L s n).sol ∈ S ∧
        aleFirst dt (fun _ => M) (fun _ => Minv) L (n * dt) (aleRun dt (fun _ => M) (fun _ => Minv) L s n) ∈ S) →
      ∀ N : ℕ, N * dt ≤ tEnd →
        ‖(aleRun dt (fun _ => M) (fun _ => Minv) L s N).sol - U (N * dt)‖ ≤ C * (‖s.sol - U 0‖ + dt ^ 2) := by
  obtain ⟨C, hC, dt₀, hdt₀, h⟩ := C129_second P hU heun heun_accepted heun_nodes heun_one
  refine ⟨C, hC, dt₀, hdt₀, fun dt h0 h1 s hs N hN => ?_⟩
  have := h dt h0 h1 (fun n => (aleRun dt (fun _ => M) (fun _ => Minv) L s n).sol) (fun m hm => ?_) N hN
  · simpa [heun_two, aleRun] using this
  · have hm' := hs m hm
    refine ⟨_, heun_stages (mid := aleFirst dt (fun _ => M) (fun _ => Minv) L (m * dt)
      (aleRun dt (fun _ => M) (fun _ => Minv) L s m)) ?_ ?_, ?_⟩
    · simp [aleFirst, Ale.prep1, Ale.solve, hM, aleNodes, vec]
    · simp only [aleRun, aleAt, aleFirst, Ale.advance, Ale.prep1, Ale.prep2, Ale.solve, aleNodes, vec]
      simp only [List.getD_cons_zero, List.getD_cons_succ, zero_mul, one_mul, add_zero, map_add, map_smul, hM]
      module
    · intro i _
      by_cases hi : i = 0
      · simpa [hi] using hm'.1
      · simpa [hi] using hm'.2

/-! ### `LeapFrogAM3` -/

theorem leap_minv (dt : ℝ) (M : V → W) (Minv : W → V) (L : ℝ → V → W) (u : V) (rhs : W) (n : ℕ) :
    (leapRun dt M Minv L u rhs n).minv = Minv := by
  cases n <;> rfl

theorem leap_old (dt : ℝ) (M : V → W) (Minv : W → V) (L : ℝ → V → W) (u : V) (rhs : W) (n : ℕ) :
    (leapRun dt M Minv L u rhs (n + 1)).old = (leapRun dt M Minv L u rhs n).sol := rfl

/-- The predicted value. -/
theorem leap_half (dt : ℝ) (M : V →ₗ[ℝ] W) (Minv : W →ₗ[ℝ] V) (hM : ∀ v, Minv (M v) = v) (L : ℝ → V → W) (u : V) (rhs : W) (t : ℝ)
    (n : ℕ) : leapHalf dt M L t (leapRun dt M Minv L u rhs n) =
      (1 / 3 : ℝ) • (leapRun dt M Minv L u rhs n).old + (2 / 3 : ℝ) • (leapRun dt M Minv L u rhs n).sol +
        (5 / 6 * dt) • Minv (L (t + dt) (leapRun dt M Minv L u rhs n).sol) := by
  rw [leapHalf, RK.Leap.predict]
  simp only [leap_minv, map_add, map_smul, hM, lfγ]
  module

/-- The corrected value. -/
theorem leap_next (dt : ℝ) (M : V →ₗ[ℝ] W) (Minv : W →ₗ[ℝ] V) (hM : ∀ v, Minv (M v) = v) (L : ℝ → V → W) (u : V) (rhs : W)
    (n : ℕ) : (leapRun dt M Minv L u rhs (n + 1)).sol = (leapRun dt M Minv L u rhs n).sol +
      dt • Minv (L (n * dt + dt) (leapHalf dt M L (n * dt) (leapRun dt M Minv L u rhs n))) := by
  rw [leapRun, leapAt, RK.Leap.advance]
  change Minv (dt • L _ (leapHalf dt M L (n * dt) (leapRun dt M Minv L u rhs n)) + M (leapRun dt M Minv L u rhs n).sol) = _
  rw [map_add, map_smul, hM, add_comm]

end Fixed

section Defects

variable {F : Type*} [NormedAddCommGroup F] [NormedSpace ℝ F]

/-- The predicted value is a value of second order at the middle of the step. -/
theorem half_defect {U : ℝ → F} (hU : ContDiff ℝ 2 U) (tEnd : ℝ) :
    ∃ M, 0 ≤ M ∧ ∀ t dt, 0 ≤ t → 0 ≤ dt → t + dt + dt ≤ tEnd →
      ‖(1 / 3 : ℝ) • U t + (2 / 3 : ℝ) • U (t + dt) + (5 / 6 * dt) • deriv U (t + dt) - U (t + dt + dt / 2)‖ ≤ M * dt ^ 2 := by
  obtain ⟨M1, hM1, h1⟩ := quadrature 0 (U := U) (by exact_mod_cast hU) tEnd 1 (fun _ => 3 / 4) (fun _ => 1 / 2) (3 / 4) (by norm_num)
    (by norm_num)
  obtain ⟨M2, hM2, h2⟩ := quadrature 0 (U := U) (by exact_mod_cast hU) tEnd 1 (fun _ => 1 / 2) (fun _ => 1 / 2) (1 / 2) (by norm_num)
    (by norm_num)
  refine ⟨4 * (M1 + M2), by positivity, fun t dt ht hdt hte => ?_⟩
  have a1 := h1 t (2 * dt) ht (by positivity) (by linarith)
  have a2 := h2 t (2 * dt) ht (by positivity) (by linarith)
  norm_num [sum_range_succ] at a1 a2
  rw [show t + 3 / 4 * (2 * dt) = t + dt + dt / 2 by ring, show t + 1 / 2 * (2 * dt) = t + dt by ring] at a1
  rw [show t + 1 / 2 * (2 * dt) = t + dt by ring] at a2
  have e : (1 / 3 : ℝ) • U t + (2 / 3 : ℝ) • U (t + dt) + (5 / 6 * dt) • deriv U (t + dt) - U (t + dt + dt / 2) =
      (2 / 3 : ℝ) • (U (t + dt) - U t - (2 * dt) • (1 / 2 : ℝ) • deriv U (t + dt)) -
        (U (t + dt + dt / 2) - U t - (2 * dt) • (3 / 4 : ℝ) • deriv U (t + dt)) := by module
  rw [e]
  refine (norm_sub_le _ _).trans ?_
  rw [norm_smul]
  norm_num
  nlinarith [sq_nonneg dt, norm_nonneg (U (t + dt) - U t - (2 * dt) • (1 / 2 : ℝ) • deriv U (t + dt))]

/-- The predicted value of the first step is of first order. -/
theorem first_defect {U : ℝ → F} (hU : ContDiff ℝ 2 U) (tEnd : ℝ) :
    ∃ M, 0 ≤ M ∧ ∀ dt, 0 ≤ dt → dt ≤ 1 → dt ≤ tEnd →
      ‖U 0 + (5 / 6 * dt) • deriv U 0 - U (dt / 2)‖ ≤ M * dt := by
  obtain ⟨M1, hM1, h1⟩ := quadrature 0 (U := U) (by exact_mod_cast hU) tEnd 1 (fun _ => 1 / 2) (fun _ => 0) (1 / 2) (by norm_num)
    (by norm_num)
  refine ⟨M1 + ‖deriv U 0‖, by positivity, fun dt hdt hd1 hte => ?_⟩
  have a1 := h1 0 dt le_rfl hdt (by linarith)
  norm_num [sum_range_succ] at a1
  have e : U 0 + (5 / 6 * dt) • deriv U 0 - U (dt / 2) =
      (dt / 3) • deriv U 0 - (U (1 / 2 * dt) - U 0 - dt • (1 / 2 : ℝ) • deriv U 0) := by
    rw [show dt / 2 = 1 / 2 * dt by ring]
    module
  rw [e]
  refine (norm_sub_le _ _).trans ?_
  rw [norm_smul, Real.norm_of_nonneg (by positivity)]
  have : M1 * dt ^ 2 ≤ M1 * dt := by nlinarith [mul_nonneg hM1 hdt]
  have : dt / 3 * ‖deriv U 0‖ ≤ ‖deriv U 0‖ * dt := by nlinarith [mul_nonneg (norm_nonneg (deriv U 0)) hdt]
  linarith

/-- The midpoint rule. -/
theorem mid_defect {U : ℝ → F} (hU : ContDiff ℝ 3 U) (tEnd : ℝ) :
    ∃ M, 0 ≤ M ∧ ∀ t dt, 0 ≤ t → 0 ≤ dt → t + dt ≤ tEnd →
      ‖U t + dt • deriv U (t + dt / 2) - U (t + dt)‖ ≤ M * dt ^ 3 := by
  obtain ⟨M1, hM1, h1⟩ := quadrature 1 (U := U) (by exact_mod_cast hU) tEnd 1 (fun _ => 1) (fun _ => 1 / 2) 1 (by norm_num)
    (by norm_num)
  refine ⟨M1, hM1, fun t dt ht hdt hte => ?_⟩
  have a1 := h1 t dt ht hdt hte
  norm_num [sum_range_succ] at a1
  rw [show t + 1 / 2 * dt = t + dt / 2 by ring] at a1
  rw [← norm_neg]
  refine le_trans (le_of_eq ?_) a1
  congr 1
  module

/-- One step, with the value `q` the predicted value of the exact solution would have. -/
theorem one_step {f : ℝ → F → F} {U : ℝ → F} {S : Set F} {L tEnd κ : ℝ} (P : Problem f U S L tEnd)
    (hκ : ∀ t s, 0 ≤ t → t ≤ s → s ≤ tEnd → ∀ x ∈ S, ‖f s x - f t x‖ ≤ κ * (s - t)) (hκ0 : 0 ≤ κ)
    {t dt M2 δ : ℝ} (ht : 0 ≤ t) (hdt : 0 ≤ dt) (hd1 : dt ≤ 1) (hte : t + dt ≤ tEnd)
    (hmid : ‖U t + dt • deriv U (t + dt / 2) - U (t + dt)‖ ≤ M2 * dt ^ 3)
    {w v p new : F} {W : F} (hv : v ∈ S) (hp : p ∈ S)
    (ep : p = (1 / 3 : ℝ) • w + (2 / 3 : ℝ) • v + (5 / 6 * dt) • f (t + dt) v) (en : new = v + dt • f (t + dt) p)
    (hδ : ‖(1 / 3 : ℝ) • W + (2 / 3 : ℝ) • U t + (5 / 6 * dt) • deriv U t - U (t + dt / 2)‖ ≤ δ)
    {E : ℝ} (hw : ‖w - W‖ ≤ E) (hvE : ‖v - U t‖ ≤ E) :
    ‖new - U (t + dt)‖ ≤ (1 + (L + L ^ 2) * dt) * E + dt * (L * δ + M2 * dt ^ 2 + (L + 1) * κ * dt) := by
  have hL := P.nonneg
  have hE : 0 ≤ E := (norm_nonneg _).trans hw
  have hUt := P.mem t ht (by linarith)
  have hUm := P.mem (t + dt / 2) (by positivity) (by linarith)
  have b1 : ‖f (t + dt) v - deriv U t‖ ≤ L * E + κ * dt := by
    rw [P.eqn t ht (by linarith)]
    have h1 := P.lip (t + dt) (by positivity) hte v hv (U t) hUt
    have h2 := hκ t (t + dt) ht (by linarith) hte (U t) hUt
    have h3 := norm_sub_le_norm_sub_add_norm_sub (f (t + dt) v) (f (t + dt) (U t)) (f t (U t))
    have h4 : L * ‖v - U t‖ ≤ L * E := by gcongr
    rw [show t + dt - t = dt by ring] at h2
    linarith
  have b2 : ‖p - U (t + dt / 2)‖ ≤ E + dt * (L * E + κ * dt) + δ := by
    have e : p - U (t + dt / 2) = ((1 / 3 : ℝ) • (w - W) + (2 / 3 : ℝ) • (v - U t)) + (5 / 6 * dt) • (f (t + dt) v - deriv U t) +
        ((1 / 3 : ℝ) • W + (2 / 3 : ℝ) • U t + (5 / 6 * dt) • deriv U t - U (t + dt / 2)) := by
      rw [ep]; module
    rw [e]
    refine (norm_add₃_le).trans ?_
    have h1 := norm_add_le ((1 / 3 : ℝ) • (w - W)) ((2 / 3 : ℝ) • (v - U t))
    rw [norm_smul, norm_smul, Real.norm_of_nonneg (by norm_num), Real.norm_of_nonneg (by norm_num)] at h1
    have h2 : ‖(5 / 6 * dt) • (f (t + dt) v - deriv U t)‖ ≤ dt * (L * E + κ * dt) := by
      rw [norm_smul, Real.norm_of_nonneg (by positivity)]
      calc _ ≤ 5 / 6 * dt * (L * E + κ * dt) := by gcongr
        _ ≤ 1 * dt * (L * E + κ * dt) := by gcongr; norm_num
        _ = _ := by ring
    linarith
  have b3 : ‖f (t + dt) p - deriv U (t + dt / 2)‖ ≤ L * (E + dt * (L * E + κ * dt) + δ) + κ * dt := by
    rw [P.eqn (t + dt / 2) (by positivity) (by linarith)]
    have h1 := P.lip (t + dt) (by positivity) hte p hp _ hUm
    have h2 := hκ (t + dt / 2) (t + dt) (by positivity) (by linarith) hte _ hUm
    have h3 := norm_sub_le_norm_sub_add_norm_sub (f (t + dt) p) (f (t + dt) (U (t + dt / 2))) (f (t + dt / 2) (U (t + dt / 2)))
    have h4 : L * ‖p - U (t + dt / 2)‖ ≤ L * (E + dt * (L * E + κ * dt) + δ) := by gcongr
    have h5 : κ * (t + dt - (t + dt / 2)) ≤ κ * dt := by gcongr; linarith
    linarith
  have e : new - U (t + dt) = (v - U t) + dt • (f (t + dt) p - deriv U (t + dt / 2)) +
      (U t + dt • deriv U (t + dt / 2) - U (t + dt)) := by
    rw [en]; module
  rw [e]
  refine (norm_add₃_le).trans ?_
  have h1 : ‖dt • (f (t + dt) p - deriv U (t + dt / 2))‖ ≤ dt * (L * (E + dt * (L * E + κ * dt) + δ) + κ * dt) := by
    rw [norm_smul, Real.norm_of_nonneg hdt]
    gcongr
  have h2 : dt * (L * (dt * (L * E + κ * dt))) ≤ dt * (L * (L * E + κ * dt)) := by
    have : 0 ≤ dt * (L * (L * E + κ * dt)) := by positivity
    calc _ = dt * (dt * (L * (L * E + κ * dt))) := by ring
      _ ≤ 1 * (dt * (L * (L * E + κ * dt))) := by gcongr
      _ = _ := by ring
  nlinarith

/-- Sizes of the terms. -/
theorem leap_arith {dt e0 e1 lip M0 M1 M2 κ K D : ℝ} (hdt : 0 < dt) (hd1 : dt ≤ 1) (he : 0 ≤ e0) (hL : 0 ≤ lip) (hM0 : 0 ≤ M0)
    (hM1 : 0 ≤ M1) (hM2 : 0 ≤ M2) (hκ : 0 ≤ κ) (hK : 0 ≤ K) (hD : D = lip * M1 + lip * M0 + M2 + (lip + 1))
    (first : e1 ≤ (1 + K * dt) * e0 + dt * (lip * (M0 * dt) + M2 * dt ^ 2 + (lip + 1) * κ * dt)) :
    0 ≤ e0 + dt ^ 2 + κ * dt ∧ lip * M1 * dt ^ 2 + M2 * dt ^ 2 + (lip + 1) * κ * dt ≤ D * (e0 + dt ^ 2 + κ * dt) ∧
      max e1 e0 ≤ (1 + K + D) * (e0 + dt ^ 2 + κ * dt) := by
  have x0 : 0 ≤ lip * M0 := mul_nonneg hL hM0
  have x1 : 0 ≤ lip * M1 := mul_nonneg hL hM1
  have hD0 : 0 ≤ D := by rw [hD]; positivity
  have y : 0 ≤ κ * dt := by positivity
  have y2 : 0 ≤ dt ^ 2 := by positivity
  have q : e0 ≤ e0 + dt ^ 2 + κ * dt := by linarith
  have q0 : 0 ≤ e0 + dt ^ 2 + κ * dt := he.trans q
  have z := mul_nonneg hD0 he
  have c4 : (lip + 1) * (κ * dt) ≤ D * (κ * dt) := mul_le_mul_of_nonneg_right (by rw [hD]; linarith) y
  refine ⟨q0, ?_, max_le (first.trans ?_) ?_⟩
  · have : (lip * M1 + M2) * dt ^ 2 ≤ D * dt ^ 2 := mul_le_mul_of_nonneg_right (by rw [hD]; linarith) y2
    linarith
  · have a1 : (1 + K * dt) * e0 ≤ (1 + K) * (e0 + dt ^ 2 + κ * dt) :=
      mul_le_mul (by nlinarith) q he (by linarith)
    have c1 : dt * (M2 * dt ^ 2) ≤ 1 * (M2 * dt ^ 2) := mul_le_mul_of_nonneg_right hd1 (by positivity)
    have c2 : dt * ((lip + 1) * (κ * dt)) ≤ 1 * ((lip + 1) * (κ * dt)) := mul_le_mul_of_nonneg_right hd1 (by positivity)
    have c3 : (lip * M0 + M2) * dt ^ 2 ≤ D * dt ^ 2 := mul_le_mul_of_nonneg_right (by rw [hD]; linarith) y2
    linarith
  · have := mul_nonneg hK q0
    have := mul_nonneg hD0 q0
    linarith

end Defects

section Fixed

variable {V W : Type*} [NormedAddCommGroup V] [NormedSpace ℝ V] [AddCommGroup W] [Module ℝ W]

/-- C134: the leap-frog scheme, started by `initialize`, converges on a fixed mesh.  `κ` bounds the change of the right-hand side in
time. -/
theorem C134_leap_frog (M : V →ₗ[ℝ] W) (Minv : W →ₗ[ℝ] V) (hM : ∀ v, Minv (M v) = v) (L : ℝ → V → W) {U : ℝ → V} {S : Set V}
    {lip tEnd κ : ℝ} (P : Problem (fun t v => Minv (L t v)) U S lip tEnd) (hU : ContDiff ℝ 3 U) (hκ0 : 0 ≤ κ)
    (hκ : ∀ t s, 0 ≤ t → t ≤ s → s ≤ tEnd → ∀ x ∈ S, ‖Minv (L s x) - Minv (L t x)‖ ≤ κ * (s - t)) :
    ∃ C, 0 ≤ C ∧ ∀ dt, 0 < dt → dt ≤ 1 → ∀ (u : V) (rhs : W),
      (∀ n : ℕ, (n + 1) * dt ≤ tEnd → (leapRun dt M Minv L u rhs n).sol ∈ S ∧
        leapHalf dt M L (n * dt) (leapRun dt M Minv L u rhs n) ∈ S) →
      ∀ N : ℕ, N * dt ≤ tEnd →
        ‖(leapRun dt M Minv L u rhs N).sol - U (N * dt)‖ ≤ C * (‖u - U 0‖ + dt ^ 2 + κ * dt) := by
  obtain ⟨M0, hM0, h0⟩ := first_defect (hU.of_le (by norm_num)) tEnd
  obtain ⟨M1, hM1, h1⟩ := half_defect (hU.of_le (by norm_num)) tEnd
  obtain ⟨M2, hM2, h2⟩ := mid_defect hU tEnd
  have hL := P.nonneg
  set K := lip + lip ^ 2 with hK
  have hK0 : 0 ≤ K := by positivity
  set D := lip * M1 + lip * M0 + M2 + (lip + 1) with hD
  have hD0 : 0 ≤ D := by positivity
  refine ⟨1 + Real.exp (K * |tEnd|) * (1 + K + D + |tEnd| * D), by positivity, fun dt hdt hd1 u rhs hS N hN => ?_⟩
  set v := fun n => (leapRun dt M Minv L u rhs n).sol with hv
  set e := fun n : ℕ => ‖v n - U (n * dt)‖ with he
  have he0 : e 0 = ‖u - U 0‖ := by simp [he, hv, leapRun, RK.Leap.initialize]
  have hen : ∀ n, 0 ≤ e n := fun n => norm_nonneg _
  -- first step
  have first : dt ≤ tEnd → e 1 ≤ (1 + K * dt) * e 0 + dt * (lip * (M0 * dt) + M2 * dt ^ 2 + (lip + 1) * κ * dt) := by
    intro hte
    have hS0 := hS 0 (by simpa using hte)
    have := one_step P hκ hκ0 (t := 0) le_rfl hdt.le hd1 (by simpa using hte) (h2 0 dt le_rfl hdt.le (by simpa using hte))
      (w := v 0) (v := v 0) (p := leapHalf dt M L ((0 : ℕ) * dt) (leapRun dt M Minv L u rhs 0)) (new := v 1) (W := U 0)
      (δ := M0 * dt) (E := e 0) hS0.1 hS0.2
      (by rw [leap_half dt M Minv hM]; simp [hv, leapRun, RK.Leap.initialize])
      (by have := leap_next dt M Minv hM L u rhs 0; simpa [hv] using this)
      (by
        have := h0 dt hdt.le hd1 hte
        rw [zero_add]
        refine le_trans (le_of_eq ?_) this
        congr 1
        module)
      (by simp [he]) (by simp [he])
    simpa [he] using this
  rcases N with _ | N
  · have : 0 ≤ Real.exp (K * |tEnd|) * (1 + K + D + |tEnd| * D) := by positivity
    change e 0 ≤ _
    rw [← he0]
    have q : 0 ≤ e 0 + dt ^ 2 + κ * dt := by have := hen 0; positivity
    nlinarith [hen 0, mul_nonneg this q, pow_pos hdt 2, mul_nonneg hκ0 hdt.le]
  push_cast at hN
  have hdE : dt ≤ tEnd := by nlinarith [(Nat.cast_nonneg N : (0 : ℝ) ≤ N)]
  have step : ∀ m : ℕ, (m + 1) * dt ≤ tEnd - dt → max (e (m + 2)) (e (m + 1)) ≤
      (1 + K * dt) * max (e (m + 1)) (e m) + dt * (lip * M1 * dt ^ 2 + M2 * dt ^ 2 + (lip + 1) * κ * dt) := by
    intro m hm
    have e1 : ((m + 1 : ℕ) : ℝ) * dt = m * dt + dt := by push_cast; ring
    have hS1 := hS (m + 1) (by push_cast; linarith)
    have hm0 : (0 : ℝ) ≤ m * dt := by positivity
    have hS1' := hS1.2
    rw [e1] at hS1'
    have := one_step P hκ hκ0 (t := m * dt + dt) (by positivity) hdt.le hd1 (by linarith)
      (h2 (m * dt + dt) dt (by positivity) hdt.le (by linarith))
      (w := v m) (v := v (m + 1)) (p := leapHalf dt M L (m * dt + dt) (leapRun dt M Minv L u rhs (m + 1))) (new := v (m + 2))
      (W := U (m * dt))
      (δ := M1 * dt ^ 2) (E := max (e (m + 1)) (e m)) hS1.1 hS1'
      (by rw [leap_half dt M Minv hM]; rfl)
      (by have := leap_next dt M Minv hM L u rhs (m + 1); rw [e1] at this; exact this)
      (h1 (m * dt) dt hm0 hdt.le (by linarith))
      (le_max_right _ _) (by
        have : e (m + 1) = ‖v (m + 1) - U (m * dt + dt)‖ := by simp only [he]; rw [e1]
        rw [← this]
        exact le_max_left _ _)
    refine max_le ?_ ?_
    · have e2 : e (m + 2) = ‖v (m + 2) - U (m * dt + dt + dt)‖ := by
        simp only [he]; congr 3; push_cast; ring
      rw [e2]
      calc _ ≤ _ := this
        _ = _ := by rw [hK]; ring
    · have a := le_max_left (e (m + 1)) (e m)
      have b : 0 ≤ K * dt * max (e (m + 1)) (e m) := by have := (hen (m + 1)).trans a; positivity
      have c : 0 ≤ dt * (lip * M1 * dt ^ 2 + M2 * dt ^ 2 + (lip + 1) * κ * dt) := by positivity
      linarith
  have acc := accumulate (e := fun m => max (e (m + 1)) (e m)) (tEnd := tEnd - dt) hK0
    (by positivity : 0 ≤ lip * M1 * dt ^ 2 + M2 * dt ^ 2 + (lip + 1) * κ * dt) hdt.le ((hen 0).trans (le_max_right _ _)) step N
    (by linarith)
  have t1 : |tEnd - dt| ≤ |tEnd| := by
    rw [abs_of_nonneg (by linarith : (0 : ℝ) ≤ tEnd - dt), abs_of_nonneg (by linarith : (0 : ℝ) ≤ tEnd)]
    linarith
  obtain ⟨q0, w1, w2⟩ := leap_arith hdt hd1 (hen 0) hL hM0 hM1 hM2 hκ0 hK0 hD (first hdE)
  have fin : Real.exp (K * |tEnd - dt|) * (max (e 1) (e 0) + |tEnd - dt| * (lip * M1 * dt ^ 2 + M2 * dt ^ 2 + (lip + 1) * κ * dt)) ≤
      Real.exp (K * |tEnd|) * ((1 + K + D) * (e 0 + dt ^ 2 + κ * dt) + |tEnd| * (D * (e 0 + dt ^ 2 + κ * dt))) := by
    gcongr
  rw [← he0]
  calc _ ≤ _ := le_max_left (e (N + 1)) (e N)
    _ ≤ _ := acc
    _ ≤ _ := fin
    _ ≤ _ := by linarith

/-- C134: with forcings that do not change the leap-frog scheme is of second order. -/
theorem C134_leap_frog_second (M : V →ₗ[ℝ] W) (Minv : W →ₗ[ℝ] V) (hM : ∀ v, Minv (M v) = v) (L : V → W) {U : ℝ → V} {S : Set V}
    {lip tEnd : ℝ} (P : Problem (fun _ v => Minv (L v)) U S lip tEnd) (hU : ContDiff ℝ 3 U) :
    ∃ C, 0 ≤ C ∧ ∀ dt, 0 < dt → dt ≤ 1 → ∀ (u : V) (rhs : W),
      (∀ n : ℕ, (n + 1) * dt ≤ tEnd → (leapRun dt M Minv (fun _ => L) u rhs n).sol ∈ S ∧
        leapHalf dt M (fun _ => L) (n * dt) (leapRun dt M Minv (fun _ => L) u rhs n) ∈ S) →
      ∀ N : ℕ, N * dt ≤ tEnd →
        ‖(leapRun dt M Minv (fun _ => L) u rhs N).sol - U (N * dt)‖ ≤ C * (‖u - U 0‖ + dt ^ 2) := by
  obtain ⟨C, hC, h⟩ := C134_leap_frog M Minv hM (fun _ => L) P hU le_rfl (fun _ _ _ _ _ _ _ => by simp)
  exact ⟨C, hC, fun dt h0 h1 u rhs hs N hN => by simpa using h dt h0 h1 u rhs hs N hN⟩

end Fixed

/-! ### Examples -/

/-- The mass of the mesh grows like `exp t`, the exact solution is `u = t`: `C134_two_stage` applies. -/
theorem grow_problem : Problem (fun t w => Real.exp t * ((Real.exp t)⁻¹ * w) + Real.exp t) (fun t => t * Real.exp t) Set.univ 1 2 where
  eqn t _ _ := by
    have h : HasDerivAt (fun t => t * Real.exp t) (1 * Real.exp t + t * Real.exp t) t := (hasDerivAt_id t).mul (Real.hasDerivAt_exp t)
    rw [h.deriv]
    have := Real.exp_ne_zero t
    field_simp
    ring
  mem _ _ _ := trivial
  nonneg := zero_le_one
  lip t _ _ x _ y _ := by
    have := Real.exp_ne_zero t
    rw [one_mul, mul_inv_cancel_left₀ this, mul_inv_cancel_left₀ this]
    simp

example : ∃ C : ℝ, 0 ≤ C ∧ ∃ dt₀ : ℝ, 0 < dt₀ ∧ ∀ dt : ℝ, 0 < dt → dt ≤ dt₀ → ∀ N : ℕ, N * dt ≤ 2 →
    |Real.exp (N * dt) * (aleRun dt (fun t v => Real.exp t * v) (fun t w => (Real.exp t)⁻¹ * w)
      (fun t v => Real.exp t * v + Real.exp t) (⟨0, 0, 0⟩ : Ale ℝ ℝ) N).sol - N * dt * Real.exp (N * dt)| ≤ C * dt ^ 2 := by
  obtain ⟨C, hC, dt₀, h0, h⟩ := C134_two_stage (fun t v => Real.exp t * v) (fun t w => (Real.exp t)⁻¹ * w)
    (fun t v => mul_inv_cancel_left₀ (Real.exp_ne_zero t) v) (fun t v => inv_mul_cancel_left₀ (Real.exp_ne_zero t) v)
    (fun t v => Real.exp t * v + Real.exp t) grow_problem (by fun_prop)
  refine ⟨C, hC, dt₀, h0, fun dt h1 h2 N hN => ?_⟩
  simpa using h dt h1 h2 ⟨0, 0, 0⟩ (fun _ _ => ⟨trivial, trivial⟩) N hN

/-- Decay on a mesh with mass two: `C134_leap_frog_second` applies. -/
theorem decay_problem : Problem (fun _ v : ℝ => (1 / 2 : ℝ) • (LinearMap.id : ℝ →ₗ[ℝ] ℝ) (-2 * v)) (fun t => Real.exp (-t)) Set.univ 1 3 where
  eqn t _ _ := by
    have h : HasDerivAt (fun t => Real.exp (-t)) (Real.exp (-t) * -1) t := (hasDerivAt_neg t).exp
    rw [h.deriv]
    simp
  mem _ _ _ := trivial
  nonneg := zero_le_one
  lip t _ _ x _ y _ := by
    rw [one_mul]
    refine le_of_eq ?_
    rw [← norm_neg]
    congr 1
    simp
    ring

example : ∃ C : ℝ, 0 ≤ C ∧ ∀ dt : ℝ, 0 < dt → dt ≤ 1 → ∀ N : ℕ, N * dt ≤ 3 →
    |(leapRun dt ((2 : ℝ) • (LinearMap.id : ℝ →ₗ[ℝ] ℝ)) ((1 / 2 : ℝ) • (LinearMap.id : ℝ →ₗ[ℝ] ℝ)) (fun _ v => -2 * v) 1 0 N).sol -
      Real.exp (-(N * dt))| ≤ C * dt ^ 2 := by
  obtain ⟨C, hC, h⟩ := C134_leap_frog_second ((2 : ℝ) • (LinearMap.id : ℝ →ₗ[ℝ] ℝ)) ((1 / 2 : ℝ) • (LinearMap.id : ℝ →ₗ[ℝ] ℝ))
    (fun v => by simp) (fun v => -2 * v) decay_problem (by fun_prop)
  refine ⟨C, hC, fun dt h1 h2 N hN => ?_⟩
  simpa using h dt h1 h2 1 0 (fun _ _ => ⟨trivial, trivial⟩) N hN

/-! ### A forcing that changes in time -/

/-- The leap-frog scheme for `u' = t`. -/
theorem ramp_run (dt : ℝ) (N : ℕ) :
    (leapRun dt (LinearMap.id : ℝ →ₗ[ℝ] ℝ) (LinearMap.id : ℝ →ₗ[ℝ] ℝ) (fun t _ => t) 0 0 N).sol = (N * dt) ^ 2 / 2 + N * dt * dt / 2 := by
  induction N with
  | zero => simp [leapRun, RK.Leap.initialize]
  | succ n ih =>
    rw [leap_next dt LinearMap.id LinearMap.id (fun _ => rfl), ih]
    simp
    ring

/-- `u' = t` meets the hypotheses of `C134_leap_frog` with `κ = 1`. -/
theorem ramp_problem (tEnd : ℝ) : Problem (fun t (_ : ℝ) => (LinearMap.id : ℝ →ₗ[ℝ] ℝ) t) (fun t => t ^ 2 / 2) Set.univ 0 tEnd where
  eqn t _ _ := by simp
  mem _ _ _ := trivial
  nonneg := le_rfl
  lip t _ _ x _ y _ := by simp

example (tEnd : ℝ) : ∃ C, 0 ≤ C ∧ ∀ dt, 0 < dt → dt ≤ 1 → ∀ N : ℕ, N * dt ≤ tEnd →
    |(leapRun dt (LinearMap.id : ℝ →ₗ[ℝ] ℝ) (LinearMap.id : ℝ →ₗ[ℝ] ℝ) (fun t _ => t) 0 0 N).sol - (N * dt) ^ 2 / 2| ≤
      C * (dt ^ 2 + dt) := by
  obtain ⟨C, hC, h⟩ := C134_leap_frog (κ := 1) (LinearMap.id : ℝ →ₗ[ℝ] ℝ) (LinearMap.id : ℝ →ₗ[ℝ] ℝ) (fun _ => rfl) (fun t _ => t)
    (ramp_problem tEnd) (by fun_prop) zero_le_one (fun t s _ hts _ x _ => by
      simp [abs_of_nonneg (sub_nonneg.2 hts)])
  refine ⟨C, hC, fun dt h1 h2 N hN => ?_⟩
  simpa using h dt h1 h2 0 0 (fun _ _ => ⟨trivial, trivial⟩) N hN

/-- C134, violated: with a forcing that changes in time the leap-frog scheme is of first order only, as `advance` evaluates it at the
end of the step both times: no multiple of `dt²` bounds the error at time one for `u' = t`. -/
theorem C134_forcing_violated (C dt₀ : ℝ) (h0 : 0 < dt₀) :
    ∃ dt, 0 < dt ∧ dt ≤ dt₀ ∧ ∃ N : ℕ, N * dt = 1 ∧
      C * dt ^ 2 < |(leapRun dt (LinearMap.id : ℝ →ₗ[ℝ] ℝ) (LinearMap.id : ℝ →ₗ[ℝ] ℝ) (fun t _ => t) 0 0 N).sol - (N * dt) ^ 2 / 2| := by
  obtain ⟨N, hN⟩ := exists_nat_gt (1 / dt₀ + 2 * |C| + 1)
  have hp : 0 < 1 / dt₀ := by positivity
  have hN0 : (0 : ℝ) < N := by have := abs_nonneg C; linarith
  refine ⟨1 / N, by positivity, ?_, N, by field_simp, ?_⟩
  · rw [div_le_iff₀ hN0]
    have : 1 / dt₀ ≤ N := by have := abs_nonneg C; linarith
    rw [div_le_iff₀ h0] at this
    linarith
  · rw [ramp_run, show (N : ℝ) * (1 / N) = 1 by field_simp]
    have e : ((1 : ℝ) ^ 2 / 2 + 1 * (1 / N) / 2 - 1 ^ 2 / 2) = 1 / N / 2 := by ring
    rw [e, abs_of_pos (by positivity)]
    have h1 : C * (1 / N) < 1 / 2 := by
      have : C ≤ |C| := le_abs_self C
      rw [mul_one_div, div_lt_iff₀ hN0]
      linarith
    have : (0 : ℝ) < 1 / N := by positivity
    nlinarith

end Verif.Leap
