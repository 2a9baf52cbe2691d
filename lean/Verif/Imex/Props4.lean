import Verif.Imex.Props3

/-!
C130: `SSPIMEX` with quadratic drag, the coefficient of which is that of the start of the step.
-/

namespace Verif.Imex

open Finset Verif.Contract Verif.Explicit Verif.Converge Verif.Dg RK

/-- The implicit terms of the stream. -/
noncomputable def streamI : Eqn (State torus) := sweImplicit streamTerm streamCoeffs fun _ => none

/-- The explicit terms of the stream. -/
noncomputable def streamE : Eqn (State torus) := sweExplicit streamTerm streamCoeffs fun _ => none

theorem streamI_eq : streamI = stream := implicit_eq _ _ _

theorem streamE_res (u v w : State torus) : streamE.res u v w = 0 := by
  simp [streamE, sweExplicit, streamCoeffs, Swe.viscosity, Swe.windStress, Swe.atmPressure, Swe.bottomDrag3d, Swe.momentumSource,
    Swe.volumeSource]

theorem streamE_mass (x y : State torus) : streamE.mass x y = ipState x y := stream_mass x y

theorem streamE_system : System (fun _ _ => streamE) uniforms id ipState where
  maps := stream_system.maps
  energy := stream_system.energy
  mass := stream_system.mass
  inner := stream_system.inner
  definite := stream_system.definite
  finite := stream_system.finite
  test _ _ x v := by
    simp only [streamE_res]
    exact IsLin.zero

theorem stream_split (p : ℕ) : SplitSolution (fun _ _ => streamI) (fun _ _ => streamE) uniforms id ipState slow p 1 1 slowing := by
  rw [streamI_eq]
  have hs := stream_solution (p + 1)
  have hpos : ∀ t, 0 < 1 / (1 + clock t) := fun t => one_div_pos.2 (clock_pos t)
  refine ⟨hs.mem, fun y hy => (stream_solution 1).smooth y hy, ?_, fun y _ => ?_, fun t h0 h1 y hy => ?_, zero_le_one, ?_, ?_⟩
  · rintro _ ⟨q, rfl⟩
    have e : (fun t => stream.res (slowing t) (slowing t) (id (uniform q))) = fun t => -((1 / (1 + clock t)) ^ 2 * q.1 0) := funext fun t => by
      simp only [slowing, id, res_uniform, Matrix.cons_val_zero, Matrix.cons_val_one]
      rw [show (1 / (1 + clock t)) ^ 2 + (0 : ℝ) ^ 2 = (1 / (1 + clock t)) ^ 2 by ring, Real.sqrt_sq (hpos t).le]
      ring
    rw [e]
    have := (contDiff_const (c := (1 : ℝ))).div (contDiff_const.add (clock_smooth p)) (fun t => (clock_pos t).ne')
    exact ((this.pow 2).mul contDiff_const).neg
  · simp only [streamE_res]
    exact contDiff_const
  · rw [streamE_res, add_zero]
    exact hs.eqn t h0 h1 y hy
  · rintro t h0 h1 _ - ⟨p, hp, rfl⟩ _ - ⟨v, hv, rfl⟩ _ ⟨q, rfl⟩
    obtain ⟨r, hr, e⟩ := hs.within t h0 h1
    rw [e, id, res_uniform, res_uniform, ← norm_vec2, ← norm_vec2, ← inner_vec2, ← inner_vec2, ← map_sub, ← map_sub]
    have n1 : ‖vec2 v‖ ≤ 1 := by rw [norm_vec2]; exact Real.sqrt_le_one.2 hv
    have n2 : ‖vec2 r‖ ≤ 1 := by rw [norm_vec2]; exact Real.sqrt_le_one.2 hr
    have n3 := norm_vec2_le (p - r)
    have n3' := norm_vec2_le (v - r)
    have n4 := norm_vec2_le q
    rw [← vec2_sub] at n3 n3'
    have e : -(‖vec2 v‖ * Inner.inner ℝ (vec2 p) (vec2 q)) - -(‖vec2 r‖ * Inner.inner ℝ (vec2 r) (vec2 q)) =
        -(‖vec2 v‖ * Inner.inner ℝ (vec2 p - vec2 r) (vec2 q) + (‖vec2 v‖ - ‖vec2 r‖) * Inner.inner ℝ (vec2 r) (vec2 q)) := by
      rw [inner_sub_left]; ring
    rw [e, abs_neg]
    have a1 := abs_real_inner_le_norm (vec2 p - vec2 r) (vec2 q)
    have a2 := abs_real_inner_le_norm (vec2 r) (vec2 q)
    have a3 := abs_norm_sub_norm_le (vec2 v) (vec2 r)
    have b1 : |‖vec2 v‖ * Inner.inner ℝ (vec2 p - vec2 r) (vec2 q)| ≤ ‖vec2 p - vec2 r‖ * ‖vec2 q‖ := by
      rw [abs_mul, abs_norm]
      exact (mul_le_of_le_one_left (abs_nonneg _) n1).trans a1
    have b2 : |(‖vec2 v‖ - ‖vec2 r‖) * Inner.inner ℝ (vec2 r) (vec2 q)| ≤ ‖vec2 v - vec2 r‖ * ‖vec2 q‖ := by
      rw [abs_mul]
      refine mul_le_mul a3 (a2.trans ?_) (abs_nonneg _) (norm_nonneg _)
      exact mul_le_of_le_one_left (norm_nonneg _) n2
    have b3 : (‖vec2 p - vec2 r‖ + ‖vec2 v - vec2 r‖) * ‖vec2 q‖ ≤
        (size ipState (uniform (p - r)) + size ipState (uniform (v - r))) * size ipState (uniform q) :=
      mul_le_mul (add_le_add n3 n3') n4 (norm_nonneg _) (add_nonneg ((norm_nonneg _).trans n3) ((norm_nonneg _).trans n3'))
    refine (abs_add_le _ _).trans ?_
    linarith
  · intro t _ _ x _ _ y _
    rw [streamE_res, streamE_res, sub_zero, abs_zero, one_mul]
    exact mul_nonneg (Real.sqrt_nonneg _) (Real.sqrt_nonneg _)

/-- C130 for the stream: first order. -/
theorem C130_stream_first : Converges ipState (ImexAt (fun _ _ => streamI) (fun _ _ => streamE) erkLPUM2 dirkLPUM2 uniforms slow) 1 slowing
    fun dt => dt := by
  have hI : System (fun _ _ => streamI) uniforms id ipState := by rw [streamI_eq]; exact stream_system
  refine C130_weak_first hI streamE_system (stream_split 1) rfl C21_dirkLPUM2.1 (fun i hi j hj hij => ?_) paired_LPUM2.nodesE
    paired_LPUM2.nodesI C21_dirkLPUM2.2.1 C21_erkLPUM2.2.1
  change i < 3 at hi
  change j < 3 at hj
  interval_cases i <;> interval_cases j <;> norm_num [erkLPUM2, RK.mk, vec]

/-- The stages of `DIRKLPUM2` for linear drag with `x` the time step times the drag coefficient, as fractions of the velocity. -/
noncomputable def frac (x : ℝ) : ℕ → ℝ
  | 0 => 1 / (1 + 2 / 11 * x)
  | 1 => 1 / (1 + 2 / 11 * x) * (1 - 41 / 154 * x * (1 / (1 + 2 / 11 * x)))
  | _ => 1 / (1 + 2 / 11 * x) * (1 - 289 / 847 * x * (1 / (1 + 2 / 11 * x)) -
      42 / 121 * x * (1 / (1 + 2 / 11 * x) * (1 - 41 / 154 * x * (1 / (1 + 2 / 11 * x)))))

/-- The velocity after the step. -/
noncomputable def rest (x : ℝ) : ℝ := 1 - x / 3 * (frac x 0 + frac x 1 + frac x 2)

theorem rest_bounds {x : ℝ} (h0 : 0 ≤ x) (h1 : x ≤ 1 / 10) : 1 / (1 + 2 * x) ≤ rest x ∧ rest x ≤ 1 / (1 + x + x ^ 2 / 4) := by
  have hp : (0 : ℝ) < 1 + 2 / 11 * x := by positivity
  have e : rest x = ((1 + 2 / 11 * x) ^ 3 - x / 3 * ((1 + 2 / 11 * x) ^ 2 + ((1 + 2 / 11 * x) ^ 2 - 41 / 154 * x * (1 + 2 / 11 * x)) +
      ((1 + 2 / 11 * x) ^ 2 - 289 / 847 * x * (1 + 2 / 11 * x) - 42 / 121 * x * (1 + 2 / 11 * x - 41 / 154 * x)))) /
      (1 + 2 / 11 * x) ^ 3 := by
    simp only [rest, frac]
    field_simp
  rw [e]
  constructor
  · rw [div_le_div_iff₀ (by positivity) (by positivity)]
    nlinarith [pow_nonneg h0 2, pow_nonneg h0 3, pow_nonneg h0 4]
  · rw [div_le_div_iff₀ (by positivity) (by positivity)]
    nlinarith [pow_nonneg h0 2, pow_nonneg h0 3, pow_nonneg h0 4, pow_nonneg h0 5]

/-- The velocity in a run. -/
noncomputable def speed (h : ℝ) : ℕ → ℝ
  | 0 => 1
  | n + 1 => speed h n * rest (h * speed h n)

theorem speed_bounds {h : ℝ} (h0 : 0 < h) (h1 : h ≤ 1 / 10) (n : ℕ) :
    0 < speed h n ∧ speed h n ≤ 1 ∧ 1 / speed h n ≤ 1 + 2 * (n * h) ∧ (n * h ≤ 1 → 1 + n * h + n * h ^ 2 / 12 ≤ 1 / speed h n) := by
  induction n with
  | zero => simp [speed]
  | succ n ih =>
    obtain ⟨a, a', b, c⟩ := ih
    have hx0 : 0 < h * speed h n := by positivity
    have hx1 : h * speed h n ≤ 1 / 10 := (mul_le_of_le_one_right h0.le a').trans h1
    obtain ⟨r1, r2⟩ := rest_bounds hx0.le hx1
    have hr : 0 < rest (h * speed h n) := lt_of_lt_of_le (by positivity) r1
    rw [speed]
    generalize hv : speed h n = v at *
    generalize hx : h * v = x at *
    have e1 : 1 / rest x ≤ 1 + 2 * x := by rw [one_div_le hr (by positivity)]; exact r1
    have e2 : 1 + x + x ^ 2 / 4 ≤ 1 / rest x := by rw [le_one_div (by positivity) hr]; exact r2
    have hv' : 0 < 1 / v := one_div_pos.2 a
    have hm : 1 / (v * rest x) = 1 / v * (1 / rest x) := by rw [one_div_mul_one_div]
    have hi : 1 / v * x = h := by rw [← hx]; field_simp
    have u1 := mul_le_mul_of_nonneg_left e1 hv'.le
    have u2 := mul_le_mul_of_nonneg_left e2 hv'.le
    rw [← hm] at u1 u2
    have t1 : 1 / v * (1 + 2 * x) = 1 / v + 2 * h := by rw [← hi]; ring
    have t2 : 1 / v * (1 + x + x ^ 2 / 4) = 1 / v + h + h ^ 2 * v / 4 := by
      have : 1 / v * x ^ 2 = h ^ 2 * v := by rw [← hx]; field_simp
      calc 1 / v * (1 + x + x ^ 2 / 4) = 1 / v + 1 / v * x + 1 / v * x ^ 2 / 4 := by ring
        _ = _ := by rw [hi, this]
    rw [t1] at u1
    rw [t2] at u2
    push_cast
    refine ⟨by positivity, ?_, by linarith, fun hn => ?_⟩
    · have : rest x ≤ 1 := r2.trans (by rw [div_le_one (by positivity)]; nlinarith [sq_nonneg x])
      exact (mul_le_of_le_one_right a.le this).trans a'
    · have hn' : n * h ≤ 1 := by linarith
      have hv3 : 1 / 3 ≤ v := by
        rw [one_div_le (by norm_num) a]
        linarith
      have : h ^ 2 / 12 ≤ h ^ 2 * v / 4 := by nlinarith [sq_nonneg h]
      linarith [c hn']

theorem frac_le {x : ℝ} (h0 : 0 ≤ x) (h1 : x ≤ 1 / 10) (i : ℕ) : 0 ≤ frac x i ∧ frac x i ≤ 1 := by
  have hp : (0 : ℝ) < 1 + 2 / 11 * x := by positivity
  have q0 : 0 < 1 / (1 + 2 / 11 * x) := by positivity
  have q1 : 1 / (1 + 2 / 11 * x) ≤ 1 := by rw [div_le_one hp]; linarith
  have key : 0 ≤ frac x 0 ∧ frac x 0 ≤ 1 ∧ 0 ≤ frac x 1 ∧ frac x 1 ≤ 1 ∧ 0 ≤ frac x 2 ∧ frac x 2 ≤ 1 := by
    simp only [frac]
    generalize 1 / (1 + 2 / 11 * x) = q at *
    have a1 : 0 ≤ x * q := by positivity
    have a2 : x * q ≤ 1 / 10 := by nlinarith
    have b0 : 0 ≤ 1 - 41 / 154 * x * q := by nlinarith
    have b1 : q * (1 - 41 / 154 * x * q) ≤ 1 := by nlinarith
    have b2 : 0 ≤ q * (1 - 41 / 154 * x * q) := by positivity
    generalize q * (1 - 41 / 154 * x * q) = r at *
    have c1 : 0 ≤ x * r := by positivity
    have c2 : x * r ≤ 1 / 10 := by nlinarith
    have d0 : 0 ≤ 1 - 289 / 847 * x * q - 42 / 121 * x * r := by nlinarith
    have d1 : q * (1 - 289 / 847 * x * q - 42 / 121 * x * r) ≤ 1 := by nlinarith
    exact ⟨q0.le, q1, b2, b1, by positivity, d1⟩
  match i with
  | 0 => exact ⟨key.1, key.2.1⟩
  | 1 => exact ⟨key.2.2.1, key.2.2.2.1⟩
  | n + 2 => exact ⟨key.2.2.2.2.1, key.2.2.2.2.2⟩

theorem uniform_smul (a b : ℝ) : a • uniform (![b, 0], 0) = uniform (![a * b, 0], 0) := by
  rw [← map_smul]
  congr 1
  refine Prod.ext (funext fun i => ?_) (mul_zero a)
  fin_cases i <;> simp

theorem uniform_add (a b : ℝ) : uniform (![a, 0], 0) + uniform (![b, 0], 0) = uniform (![a + b, 0], 0) := by
  rw [← map_add]
  congr 1
  refine Prod.ext (funext fun i => ?_) (add_zero 0)
  fin_cases i <;> simp

theorem uniform_slow {a : ℝ} (h0 : 0 ≤ a) (h1 : a ≤ 1) : uniform (![a, 0], 0) ∈ slow := ⟨_, by
  simp only [Matrix.cons_val_zero, Matrix.cons_val_one]
  nlinarith, rfl⟩

/-- The step from velocity `v` exists. -/
theorem stream_step {h v : ℝ} (h0 : 0 < h) (h1 : h ≤ 1 / 10) (v0 : 0 < v) (v1 : v ≤ 1) (t : ℝ) :
    ImexAt (fun _ _ => streamI) (fun _ _ => streamE) erkLPUM2 dirkLPUM2 uniforms slow t h (uniform (![v, 0], 0))
      (uniform (![v * rest (h * v), 0], 0)) := by
  have hx0 : 0 ≤ h * v := by positivity
  have hx1 : h * v ≤ 1 / 10 := (mul_le_of_le_one_right h0.le v1).trans h1
  have hf := frac_le hx0 hx1
  have hst : ∀ i, stage erkLPUM2 (uniform (![v, 0], 0)) (fun _ => 0) i = uniform (![v, 0], 0) := fun i => by simp [stage]
  have hp : (1 : ℝ) + 2 / 11 * (h * v) ≠ 0 := by positivity
  have hval : ∀ i < 3, stageValue dirkLPUM2 h (uniform (![v, 0], 0)) (fun j => uniform (![-(v ^ 2 * frac (h * v) j), 0], 0)) i =
      uniform (![v * frac (h * v) i, 0], 0) := fun i hi => by
    have e0 : frac (h * v) 0 * (1 + 2 / 11 * (h * v)) = 1 := by simp only [frac]; exact one_div_mul_cancel hp
    have e1 : frac (h * v) 1 = frac (h * v) 0 * (1 - 41 / 154 * (h * v) * frac (h * v) 0) := rfl
    have e2 : frac (h * v) 2 = frac (h * v) 0 * (1 - 289 / 847 * (h * v) * frac (h * v) 0 - 42 / 121 * (h * v) * frac (h * v) 1) := rfl
    generalize frac (h * v) = f at *
    unfold stageValue
    simp only [uniform_smul]
    interval_cases i
    · simp only [zero_add, sum_range_one, uniform_add]
      norm_num [dirkLPUM2, RK.mk, vec]
      congr 5
      linear_combination (-v) * e0
    · simp only [Nat.reduceAdd, sum_range_succ, sum_range_zero, zero_add, uniform_add]
      norm_num [dirkLPUM2, RK.mk, vec]
      congr 5
      have : f 1 * (1 + 2 / 11 * (h * v)) = 1 - 41 / 154 * (h * v) * f 0 := by
        rw [e1]; linear_combination (1 - 41 / 154 * (h * v) * f 0) * e0
      linear_combination (-v) * this
    · simp only [Nat.reduceAdd, sum_range_succ, sum_range_zero, zero_add, uniform_add]
      norm_num [dirkLPUM2, RK.mk, vec]
      congr 5
      have : f 2 * (1 + 2 / 11 * (h * v)) = 1 - 289 / 847 * (h * v) * f 0 - 42 / 121 * (h * v) * f 1 := by
        rw [e2]; linear_combination (1 - 289 / 847 * (h * v) * f 0 - 42 / 121 * (h * v) * f 1) * e0
      linear_combination (-v) * this
  refine ⟨fun _ => 0, fun j => uniform (![-(v ^ 2 * frac (h * v) j), 0], 0), fun i hi => ?_, ?_⟩
  · change i < 3 at hi
    rw [StageAt, hst, hval i hi]
    refine ⟨uniform_slow v0.le v1, uniform_slow (mul_nonneg v0.le (hf i).1) (mul_le_one₀ v1 (hf i).1 (hf i).2), ⟨_, rfl⟩, ?_,
      ⟨uniforms.zero_mem, fun w _ => ?_⟩⟩
    · rintro _ ⟨q, rfl⟩
      rw [streamI_eq]
      change -ipState _ _ + stream.res _ _ _ = 0
      rw [ip_uniform, res_uniform]
      simp only [Matrix.cons_val_zero, Matrix.cons_val_one]
      rw [show v ^ 2 + (0 : ℝ) ^ 2 = v ^ 2 by ring, Real.sqrt_sq v0.le]
      ring
    · change streamE.mass 0 w = h * streamE.res _ _ w
      rw [streamE_res, streamE_mass, mul_zero]
      have := (stream_system.energy.lin.1 w).2 0 0
      simpa using this
  · change _ = _ + ∑ j ∈ range 3, _ + ∑ j ∈ range 3, _
    simp only [smul_zero, sum_const_zero, add_zero, uniform_smul, sum_range_succ, sum_range_zero, zero_add, uniform_add, rest]
    norm_num [dirkLPUM2, RK.mk, vec]
    congr 5
    ring

/-- C130, violated: `SSPIMEX`, that is `IMEXLPUM2`, is not of second order for quadratic drag, with and without
`use_semi_implicit_linearization`.  The problem has a smooth solution, and steps exist; the order is one by `C130_stream_first`. -/
theorem C130_drag_violated : System (fun _ _ => stream) uniforms id ipState ∧
    (∀ k, Solution (fun _ _ => stream) uniforms id ipState slow k 2 1 slowing) ∧ Paired erkLPUM2 dirkLPUM2 ∧
    ¬ Converges ipState (ImexAt (fun _ _ => streamI) (fun _ _ => streamE) erkLPUM2 dirkLPUM2 uniforms slow) 1 slowing
      (fun dt => dt ^ 2) := by
  refine ⟨stream_system, stream_solution, paired_LPUM2, ?_⟩
  rintro ⟨C, hC, top, ht, h⟩
  obtain ⟨N, hN⟩ := exists_nat_gt (max (max (1 / top) 10) (72 * C))
  have hNt : 1 / top < N := ((le_max_left _ _).trans (le_max_left _ _)).trans_lt hN
  have hN1 : 10 < (N : ℝ) := ((le_max_right _ _).trans (le_max_left _ _)).trans_lt hN
  have hNC : 72 * C < N := (le_max_right _ _).trans_lt hN
  have hN0 : (0 : ℝ) < N := by linarith
  have hd : (0 : ℝ) < 1 / N := by positivity
  have hd1 : 1 / (N : ℝ) ≤ 1 / 10 := one_div_le_one_div_of_le (by norm_num) hN1.le
  have hle : 1 / (N : ℝ) ≤ top := by
    rw [div_le_iff₀ hN0, ← div_le_iff₀' ht]
    exact hNt.le
  have hNN : (N : ℝ) * (1 / N) = 1 := by rw [mul_one_div, div_self hN0.ne']
  have key := h (1 / N) hd hle (fun n => uniform (![speed (1 / N) n, 0], 0)) (by simp [speed, slowing, clock]) (fun n _ => by
    obtain ⟨a, b, -⟩ := speed_bounds hd hd1 n
    exact stream_step hd hd1 a b _) N hNN.le
  obtain ⟨b0, -, b2, b3⟩ := speed_bounds hd hd1 N
  have b3 := b3 hNN.le
  rw [hNN] at b2 b3 key
  have e : uniform (![speed (1 / N) N, 0], 0) - slowing 1 = uniform (![speed (1 / N) N - 1 / 2, 0], 0) := by
    rw [slowing, clock_eq (by norm_num), ← map_sub]
    congr 1
    refine Prod.ext (funext fun i => ?_) (sub_zero _)
    fin_cases i
    · norm_num
    · simp
  rw [e, size, ip_uniform] at key
  simp only [Matrix.cons_val_zero, Matrix.cons_val_one, mul_zero, add_zero] at key
  rw [Real.sqrt_mul_self_eq_abs] at key
  have hsq : (N : ℝ) * (1 / N) ^ 2 = 1 / N := by rw [sq, ← mul_assoc, hNN, one_mul]
  rw [hsq] at b3
  generalize speed (1 / N) N = s at *
  have low : 1 / (N : ℝ) / 72 ≤ 1 / 2 - s := by
    have hs : s * (1 / s) = 1 := mul_one_div_cancel b0.ne'
    have h3 : 1 / 3 ≤ s := by
      rw [one_div_le (by norm_num) b0]
      linarith
    nlinarith
  have := low.trans (((le_abs_self _).trans_eq (abs_sub_comm _ _)).trans key)
  have h2 := mul_le_mul_of_nonneg_right this (by positivity : (0 : ℝ) ≤ 72 * N ^ 2)
  field_simp at h2
  linarith

end Verif.Imex
