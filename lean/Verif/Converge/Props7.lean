import Verif.Converge.Props6
import Mathlib.Analysis.SpecialFunctions.SmoothTransition

/-!
C129: `CrankNicolson` with the semi-implicit linearization of quadratic drag.
-/

namespace Verif.Converge

open Finset Verif.Contract Verif.Explicit Verif.Dg RK

/-- A periodic mesh of one square cell with its midpoint; its facets are those between the cell and itself. -/
noncomputable def torus : Mesh 2 where
  C := Unit
  S := Fin 2
  B := Empty
  wC := fun _ => 1
  wS := fun _ => 1
  wB := fun _ => 1
  np := fun s i => if s = i then 1 else 0
  nm := fun s i => if s = i then -1 else 0
  nb := fun _ _ => 0
  marker := fun _ => 0
  markers := []
  volP := fun _ => 1
  volM := fun _ => 1
  volB := fun _ => 1
  areaS := fun _ => 1
  areaB := fun _ => 1
  wC_nonneg := fun _ => zero_le_one
  wS_nonneg := fun _ => zero_le_one
  wB_nonneg := fun _ => zero_le_one
  markers_nodup := List.nodup_nil
  marker_mem := fun b => b.elim

/-- The linear equations over water of depth one. -/
noncomputable def streamTerm : Swe.Term torus where
  depth := { bathymetry := cst torus 1, nonlinear := false, wetdry := false, alpha := cst torus 0 }
  g := 1
  rho0 := 1
  uDg := true
  etaDg := true
  blen := fun _ => 1
  nonlinear := false
  lf := true
  lfFactor := 1
  sipg := cst torus 1
  p := 0
  triangle := false
  gradDiv := true
  gradDepth := true
  smoother := 0

/-- Quadratic drag. -/
def streamCoeffs : Swe.Coeffs torus where
  nu := none
  coriolis := none
  wind := none
  pressure := none
  cd := some fun _ => 1
  linear := none
  bottomDrag := none
  uvBottom := none
  source := none
  volume := none
  farms := []

/-- A stream with quadratic drag. -/
noncomputable def stream : Eqn (State torus) := swe streamTerm streamCoeffs fun _ => none

/-- Flows that are the same everywhere. -/
noncomputable def uniform : (Fin 2 → ℝ) × ℝ →ₗ[ℝ] State torus where
  toFun p := (fun i => cst torus (p.1 i), cst torus p.2)
  map_add' p q := by
    refine Prod.ext (funext fun i => funext fun x => Jet.ext rfl (funext fun j => ?_)) (funext fun x => Jet.ext rfl (funext fun j => ?_))
    · exact (add_zero (0 : ℝ)).symm
    · exact (add_zero (0 : ℝ)).symm
  map_smul' a p := by
    refine Prod.ext (funext fun i => funext fun x => Jet.ext rfl (funext fun j => ?_)) (funext fun x => Jet.ext rfl (funext fun j => ?_))
    · exact (mul_zero a).symm
    · exact (mul_zero a).symm

/-- Their space. -/
noncomputable def uniforms : Submodule ℝ (State torus) := LinearMap.range uniform

theorem dx_torus (f : Unit → ℝ) : torus.dx f = f () := by
  change ∑ c : Unit, (1 : ℝ) * f c = f ()
  simp

theorem ip_uniform (p q : (Fin 2 → ℝ) × ℝ) : ipState (uniform p) (uniform q) = p.1 0 * q.1 0 + p.1 1 * q.1 1 + p.2 * q.2 := by
  unfold ipState ip
  rw [Fin.sum_univ_two]
  erw [dx_torus, dx_torus, dx_torus]
  rfl

theorem torus_flat : torus.Flat := fun (s : Fin 2) i => by
  change (if s = i then (-1 : ℝ) else 0) = -(if s = i then 1 else 0)
  split <;> simp

theorem jumpV_uniform (p : (Fin 2 → ℝ) × ℝ) (s : torus.S) : jumpV (uniform p).1 s = 0 := by
  simp only [jumpV, torus_flat s, uniform, LinearMap.coe_mk, AddHom.coe_mk, cst, mul_neg, sum_neg_distrib]
  ring

theorem jumpN_uniform (p : (Fin 2 → ℝ) × ℝ) (s : torus.S) (i : Fin 2) : jumpN (uniform p).2 s i = 0 := by
  simp only [jumpN, torus_flat s, uniform, LinearMap.coe_mk, AddHom.coe_mk, cst, mul_neg]
  ring

theorem res_uniform (p v w : (Fin 2 → ℝ) × ℝ) : stream.res (uniform p) (uniform v) (uniform w) =
    -(Real.sqrt (v.1 0 ^ 2 + v.1 1 ^ 2) * (w.1 0 * p.1 0 + w.1 1 * p.1 1)) := by
  have hd : ∀ x, div (uniform w).1 x = 0 := fun x => by simp [div, uniform, cst, Jet.const]
  have hg : ∀ x i, ((uniform w).2 x).g i = 0 := fun x i => rfl
  have hl : ∀ f : ℕ → torus.B → ℝ, torus.bndLoop f = 0 := fun f => rfl
  have h1 : streamTerm.etaDg = true := rfl
  have h2 : streamTerm.uDg = true := rfl
  have h3 : streamTerm.nonlinear = false := rfl
  have h4 : ∀ x, (Swe.totalH streamTerm (uniform v).2 x).v = 1 := fun x => rfl
  have h5 : streamTerm.smoother = 0 := rfl
  have e : ∀ (q : (Fin 2 → ℝ) × ℝ) i (x : Unit), ((uniform q).1 i (.cell x)).v = q.1 i := fun _ _ _ => rfl
  have hq : Swe.quadraticDrag streamTerm (some fun _ => 1) (uniform p).1 (uniform v).1 (uniform v).2 (uniform w).1 =
      -(Real.sqrt (v.1 0 ^ 2 + v.1 1 ^ 2) * (w.1 0 * p.1 0 + w.1 1 * p.1 1)) := by
    refine (congrArg Neg.neg (dx_torus _)).trans ?_
    simp only [h4, h5, Fin.sum_univ_two]
    erw [e, e, e, e, e, e]
    ring_nf
  simp only [stream, swe, Swe.momentum, Swe.continuity, streamCoeffs, Swe.pressure, Swe.advection, Swe.huDiv, h1, h2, h3, if_true, hd, hg,
    hl, jumpV_uniform, jumpN_uniform, Swe.viscosity, Swe.coriolis, Swe.windStress, Swe.atmPressure, hq, Swe.linearDrag, Swe.boundaryDrag,
    Swe.bottomDrag3d, Swe.momentumSource, Swe.turbineDrag, Swe.volumeSource]
  simp [Mesh.dx, Mesh.dS]

theorem stream_lin (x v : State torus) : IsLin fun y => stream.res x v y := by
  have hl : ∀ f : ℕ → torus.B → ℝ, torus.bndLoop f = 0 := fun f => rfl
  have h1 : streamTerm.etaDg = true := rfl
  have h2 : streamTerm.uDg = true := rfl
  have h3 : streamTerm.nonlinear = false := rfl
  simp only [stream, swe, Swe.momentum, Swe.continuity, streamCoeffs, Swe.pressure, Swe.advection, Swe.huDiv, h1, h2, h3, if_true,
    hl, Swe.viscosity, Swe.coriolis, Swe.windStress, Swe.atmPressure, Swe.quadraticDrag, Swe.linearDrag, Swe.boundaryDrag,
    Swe.bottomDrag3d, Swe.momentumSource, Swe.turbineDrag, Swe.volumeSource, jumpV, jumpN, div]
  lin

theorem stream_mass (x y : State torus) : stream.mass x y = ipState x y := by
  have : ∀ y, (streamTerm.depth.displacement y) = fun _ => 0 := fun y => rfl
  simp only [stream, swe, ipState, Swe.massEta, this]
  simp [ip, Mesh.dx]

theorem stream_system : System (fun _ _ => stream) uniforms id ipState where
  maps _ h := h
  energy := by
    have := isEnergy_weight (m := torus) 1 1 zero_le_one zero_le_one
    have h : ∀ y : State torus, weight 1 1 y = y := fun y => Prod.ext (one_smul _ _) (one_smul _ _)
    simpa only [h] using this
  mass _ _ _ _ := stream_mass _ _
  inner _ _ _ _ := rfl
  definite := by
    rintro _ ⟨p, rfl⟩ h
    rw [ip_uniform] at h
    have h0 : p.1 0 = 0 := by nlinarith [sq_nonneg (p.1 0), sq_nonneg (p.1 1), sq_nonneg p.2]
    have h1 : p.1 1 = 0 := by nlinarith [sq_nonneg (p.1 0), sq_nonneg (p.1 1), sq_nonneg p.2]
    have h2 : p.2 = 0 := by nlinarith [sq_nonneg (p.1 0), sq_nonneg (p.1 1), sq_nonneg p.2]
    rw [show p = 0 from Prod.ext (funext fun i => by fin_cases i; exacts [h0, h1]) h2, map_zero]
  finite := by unfold uniforms; infer_instance
  test _ _ _ _ := stream_lin _ _

/-- Flows of at most unit speed. -/
def slow : Set (State torus) := {x | ∃ p, p.1 0 ^ 2 + p.1 1 ^ 2 ≤ 1 ∧ x = uniform p}

/-- The velocity as a vector. -/
noncomputable def vec2 (p : (Fin 2 → ℝ) × ℝ) : EuclideanSpace ℝ (Fin 2) := WithLp.toLp 2 p.1

theorem norm_vec2 (p : (Fin 2 → ℝ) × ℝ) : ‖vec2 p‖ = Real.sqrt (p.1 0 ^ 2 + p.1 1 ^ 2) := by
  rw [EuclideanSpace.norm_eq, Fin.sum_univ_two]
  simp [vec2]

theorem inner_vec2 (p q : (Fin 2 → ℝ) × ℝ) : Inner.inner ℝ (vec2 p) (vec2 q) = q.1 0 * p.1 0 + q.1 1 * p.1 1 := by
  simp [vec2, PiLp.inner_apply, Fin.sum_univ_two]

theorem norm_vec2_le (p : (Fin 2 → ℝ) × ℝ) : ‖vec2 p‖ ≤ size ipState (uniform p) := by
  rw [norm_vec2, size, ip_uniform]
  exact Real.sqrt_le_sqrt (by nlinarith [sq_nonneg p.2])

theorem vec2_sub (p q : (Fin 2 → ℝ) × ℝ) : vec2 p - vec2 q = vec2 (p - q) := rfl

theorem uniform_inj {p q : (Fin 2 → ℝ) × ℝ} (h : uniform p = uniform q) : p = q := by
  refine Prod.ext (funext fun i => ?_) ?_
  · exact congrArg Jet.v (congrFun (congrFun (congrArg Prod.fst h) i) (.cell ()))
  · exact congrArg Jet.v (congrFun (congrArg Prod.snd h) (.cell ()))

/-- Time, for times after `-1/2`. -/
noncomputable def clock (t : ℝ) : ℝ := t * Real.smoothTransition (2 * t + 2)

theorem clock_eq {t : ℝ} (h : -1 / 2 ≤ t) : clock t = t := by
  rw [clock, Real.smoothTransition.one_of_one_le (by linarith), mul_one]

theorem clock_pos (t : ℝ) : 0 < 1 + clock t := by
  unfold clock
  have h0 := Real.smoothTransition.nonneg (2 * t + 2)
  have h1 := Real.smoothTransition.le_one (2 * t + 2)
  rcases le_or_gt t (-1) with h | h
  · rw [Real.smoothTransition.zero_of_nonpos (by linarith)]; norm_num
  · rcases le_or_gt 0 t with h' | h'
    · nlinarith [mul_nonneg h' h0]
    · nlinarith

theorem clock_smooth (k : ℕ) : ContDiff ℝ k clock := by
  unfold clock
  have : ContDiff ℝ ((k : ℕ∞) : WithTop ℕ∞) Real.smoothTransition := Real.smoothTransition.contDiff
  exact contDiff_id.mul (this.comp (by fun_prop))

/-- The velocity of the stream that slows down. -/
noncomputable def slowing (t : ℝ) : State torus := uniform (![1 / (1 + clock t), 0], 0)

theorem stream_solution (k : ℕ) : Solution (fun _ _ => stream) uniforms id ipState slow k 2 1 slowing := by
  refine ⟨fun t => ⟨_, rfl⟩, fun t h0 h1 => ⟨_, ?_, rfl⟩, ?_, ?_, by norm_num, ?_⟩
  · rw [clock_eq (by linarith)]
    have : 1 / (1 + t) ≤ 1 := by rw [div_le_one (by linarith)]; linarith
    have h : 0 ≤ 1 / (1 + t) := by positivity
    simp only [Matrix.cons_val_zero, Matrix.cons_val_one]
    nlinarith
  · rintro _ ⟨q, rfl⟩
    simp only [slowing, ip_uniform]
    have := (contDiff_const (c := (1 : ℝ))).div (contDiff_const.add (clock_smooth k)) (fun t => (clock_pos t).ne')
    simp only [Matrix.cons_val_zero, Matrix.cons_val_one]
    exact ((this.mul contDiff_const).add contDiff_const).add contDiff_const
  · rintro t h0 h1 _ ⟨q, rfl⟩
    simp only [slowing, id, res_uniform, ip_uniform, Matrix.cons_val_zero, Matrix.cons_val_one]
    have hp : (0 : ℝ) < 1 + t := by linarith
    have he : (fun s => 1 / (1 + clock s) * q.1 0 + 0 * q.1 1 + 0 * q.2) =ᶠ[nhds t] fun s => 1 / (1 + s) * q.1 0 := by
      filter_upwards [lt_mem_nhds (show -1 / 2 < t by linarith)] with s hs
      rw [clock_eq hs.le]; ring
    rw [he.deriv_eq, clock_eq (by linarith)]
    have hd : HasDerivAt (fun s : ℝ => 1 / (1 + s) * q.1 0) ((0 * (1 + t) - 1 * 1) / (1 + t) ^ 2 * q.1 0) t :=
      ((hasDerivAt_const t (1 : ℝ)).div ((hasDerivAt_id t).const_add 1) hp.ne').mul_const _
    rw [hd.deriv, show (1 / (1 + t)) ^ 2 + (0 : ℝ) ^ 2 = (1 / (1 + t)) ^ 2 by ring, Real.sqrt_sq (by positivity)]
    field_simp
    ring
  · rintro t - - _ - ⟨p, hp, rfl⟩ _ - ⟨p', hp', rfl⟩ _ ⟨q, rfl⟩
    rw [id, res_uniform, res_uniform, ← norm_vec2, ← norm_vec2, ← inner_vec2, ← inner_vec2, ← map_sub]
    have n1 : ‖vec2 p‖ ≤ 1 := by rw [norm_vec2]; exact Real.sqrt_le_one.2 hp
    have n2 : ‖vec2 p'‖ ≤ 1 := by rw [norm_vec2]; exact Real.sqrt_le_one.2 hp'
    have n3 := norm_vec2_le (p - p')
    have n4 := norm_vec2_le q
    rw [← vec2_sub] at n3
    have e : -(‖vec2 p‖ * Inner.inner ℝ (vec2 p) (vec2 q)) - -(‖vec2 p'‖ * Inner.inner ℝ (vec2 p') (vec2 q)) =
        -(‖vec2 p‖ * Inner.inner ℝ (vec2 p - vec2 p') (vec2 q) + (‖vec2 p‖ - ‖vec2 p'‖) * Inner.inner ℝ (vec2 p') (vec2 q)) := by
      rw [inner_sub_left]; ring
    rw [e, abs_neg]
    have a1 := abs_real_inner_le_norm (vec2 p - vec2 p') (vec2 q)
    have a2 := abs_real_inner_le_norm (vec2 p') (vec2 q)
    have a3 := abs_norm_sub_norm_le (vec2 p) (vec2 p')
    have b1 : |‖vec2 p‖ * Inner.inner ℝ (vec2 p - vec2 p') (vec2 q)| ≤ ‖vec2 p - vec2 p'‖ * ‖vec2 q‖ := by
      rw [abs_mul, abs_norm]
      exact (mul_le_of_le_one_left (abs_nonneg _) n1).trans a1
    have b2 : |(‖vec2 p‖ - ‖vec2 p'‖) * Inner.inner ℝ (vec2 p') (vec2 q)| ≤ ‖vec2 p - vec2 p'‖ * ‖vec2 q‖ := by
      rw [abs_mul]
      refine mul_le_mul a3 (a2.trans ?_) (abs_nonneg _) (norm_nonneg _)
      exact mul_le_of_le_one_left (norm_nonneg _) n2
    have b3 : ‖vec2 p - vec2 p'‖ * ‖vec2 q‖ ≤ size ipState (uniform (p - p')) * size ipState (uniform q) :=
      mul_le_mul n3 n4 (norm_nonneg _) ((norm_nonneg _).trans n3)
    refine (abs_add_le _ _).trans ?_
    linarith

/-- C129 for the stream, without the linearization: second order. -/
theorem stream_crank : Converges ipState (CrankAt (fun _ _ => stream) (1 / 2) false uniforms slow) 1 slowing fun dt => dt ^ 2 := by
  have := C129_crank stream_system false (Or.inl rfl) (fun _ _ _ => rfl) (1 / 2) (stream_solution 3)
  simpa using this

/-- The reciprocal of the velocity in a run with the linearization. -/
noncomputable def slowness (h : ℝ) : ℕ → ℝ
  | 0 => 1
  | n + 1 => slowness h n * (2 * slowness h n + h) / (2 * slowness h n - h)

theorem slowness_step {h v : ℝ} (h1 : h ≤ 1) (hv : 1 ≤ v) :
    v * (2 * v + h) / (2 * v - h) = v + h + h ^ 2 / (2 * v - h) := by
  have : (0 : ℝ) < 2 * v - h := by linarith
  rw [div_eq_iff this.ne', add_mul, div_mul_cancel₀ _ this.ne']
  ring

theorem slowness_bounds {h : ℝ} (h0 : 0 < h) (h1 : h ≤ 1) (n : ℕ) :
    1 ≤ slowness h n ∧ slowness h n ≤ 1 + 2 * (n * h) ∧ (n * h ≤ 1 → 1 + n * h + n * h ^ 2 / 6 ≤ slowness h n) := by
  induction n with
  | zero => simp [slowness]
  | succ n ih =>
    obtain ⟨a, b, c⟩ := ih
    have hp : (0 : ℝ) < 2 * slowness h n - h := by linarith
    rw [slowness, slowness_step h1 a]
    have hq : 0 < h ^ 2 / (2 * slowness h n - h) := by positivity
    have hq' : h ^ 2 / (2 * slowness h n - h) ≤ h := by rw [div_le_iff₀ hp]; nlinarith
    push_cast
    refine ⟨by linarith, by linarith, fun hn => ?_⟩
    have hn' : n * h ≤ 1 := by linarith
    have : h ^ 2 / 6 ≤ h ^ 2 / (2 * slowness h n - h) :=
      div_le_div_of_nonneg_left (by positivity) hp (by linarith)
    linarith [c hn']

/-- C129, violated: with `use_semi_implicit_linearization` `CrankNicolson` with `theta = 1/2` is not of second order.  The problem
has a smooth solution, and steps of any length exist; without the option the order is two by `stream_crank`. -/
theorem C129_semi_violated : System (fun _ _ => stream) uniforms id ipState ∧
    (∀ k, Solution (fun _ _ => stream) uniforms id ipState slow k 2 1 slowing) ∧
    ¬ Converges ipState (CrankAt (fun _ _ => stream) (1 / 2) true uniforms slow) 1 slowing (fun dt => dt ^ 2) := by
  refine ⟨stream_system, stream_solution, ?_⟩
  rintro ⟨C, hC, top, ht, h⟩
  obtain ⟨N, hN⟩ := exists_nat_gt (max (max (1 / top) 1) (36 * C))
  have hNt : 1 / top < N := ((le_max_left _ _).trans (le_max_left _ _)).trans_lt hN
  have hN1 : 1 < (N : ℝ) := ((le_max_right _ _).trans (le_max_left _ _)).trans_lt hN
  have hNC : 36 * C < N := (le_max_right _ _).trans_lt hN
  have hN0 : (0 : ℝ) < N := by linarith
  have hd : (0 : ℝ) < 1 / N := by positivity
  have hd1 : 1 / (N : ℝ) ≤ 1 := by rw [div_le_one hN0]; exact hN1.le
  have hle : 1 / (N : ℝ) ≤ top := by
    rw [div_le_iff₀ hN0, ← div_le_iff₀' ht]
    exact hNt.le
  have hNN : (N : ℝ) * (1 / N) = 1 := by rw [mul_one_div, div_self hN0.ne']
  have hs : ∀ n, 1 / slowness (1 / N) n ≤ 1 ∧ 0 < 1 / slowness (1 / N) n := fun n => by
    have := (slowness_bounds hd hd1 n).1
    exact ⟨by rw [div_le_one (by linarith)]; exact this, by positivity⟩
  have hw : ∀ n, uniform (![1 / slowness (1 / N) n, 0], 0) ∈ slow := fun n => ⟨_, by
    simp only [Matrix.cons_val_zero, Matrix.cons_val_one]
    nlinarith [hs n], rfl⟩
  have key := h (1 / N) hd hle (fun n => uniform (![1 / slowness (1 / N) n, 0], 0)) ?_ (fun n _ => ⟨hw n, hw (n + 1), ⟨_, rfl⟩, ?_⟩) N hNN.le
  · obtain ⟨b1, b2, b3⟩ := slowness_bounds hd hd1 N
    have b3 := b3 hNN.le
    rw [hNN] at b2 b3 key
    have e : uniform (![1 / slowness (1 / N) N, 0], 0) - slowing 1 = uniform (![1 / slowness (1 / N) N - 1 / 2, 0], 0) := by
      rw [slowing, clock_eq (by norm_num), ← map_sub]
      congr 1
      refine Prod.ext (funext fun i => ?_) (sub_zero _)
      fin_cases i
      · norm_num
      · simp
    rw [e, size, ip_uniform] at key
    simp only [Matrix.cons_val_zero, Matrix.cons_val_one, mul_zero, add_zero] at key
    rw [Real.sqrt_mul_self_eq_abs] at key
    have hp : 0 < slowness (1 / N) N := by linarith
    have hsq : (N : ℝ) * (1 / N) ^ 2 = 1 / N := by rw [sq, ← mul_assoc, hNN, one_mul]
    rw [hsq] at b3
    have low : 1 / (N : ℝ) / 36 ≤ 1 / 2 - 1 / slowness (1 / N) N := by
      rw [div_sub_div _ _ (by norm_num) hp.ne', le_div_iff₀ (by positivity)]
      nlinarith
    have := low.trans (((le_abs_self _).trans_eq (abs_sub_comm _ _)).trans key)
    have h2 := mul_le_mul_of_nonneg_right this (by positivity : (0 : ℝ) ≤ 36 * N ^ 2)
    field_simp at h2
    linarith
  · simp [slowness, slowing, clock]
  · rintro _ ⟨q, rfl⟩
    have hr : ∀ n m, stream.res (uniform (![1 / slowness (1 / N) m, 0], 0)) (uniform (![1 / slowness (1 / N) n, 0], 0)) (uniform q) =
        -(1 / slowness (1 / N) n * (q.1 0 * (1 / slowness (1 / N) m))) := fun n m => by
      rw [res_uniform]
      simp only [Matrix.cons_val_zero, Matrix.cons_val_one]
      rw [show (1 / slowness (1 / N) n) ^ 2 + (0 : ℝ) ^ 2 = (1 / slowness (1 / N) n) ^ 2 by ring, Real.sqrt_sq (hs n).2.le]
      ring
    simp only [if_true, hr, stream_mass, ip_uniform, Matrix.cons_val_zero, Matrix.cons_val_one]
    have b1 := (slowness_bounds hd hd1 n).1
    have hp : (0 : ℝ) < 2 * slowness (1 / N) n - 1 / N := by linarith
    have hp' : (0 : ℝ) < 2 * slowness (1 / N) n + 1 / N := by linarith
    have hv : (0 : ℝ) < slowness (1 / N) n := by linarith
    rw [slowness]
    generalize slowness (1 / N) n = v at *
    generalize (1 / N : ℝ) = h at *
    rw [one_div_div]
    field_simp
    ring

/-! ### Examples -/

/-- The conditions of `C129_waves` hold on the square with rotation and linear drag. -/
theorem calmBasin : Basin Swe.exTerm { exCoeffs with cd := none, farms := [] } (fun _ => none)
    (Submodule.pi Set.univ fun _ => linears) linears 10 where
  linear := exBasin.linear
  depth := exBasin.depth
  g_pos := exBasin.g_pos
  depth_pos := exBasin.depth_pos
  closed := exBasin.closed
  flat := exBasin.flat
  unit := exBasin.unit
  uDg := exBasin.uDg
  exact := exBasin.exact
  free := ⟨rfl, rfl, rfl, rfl, rfl⟩
  drag cd h x := by cases h
  lindrag := exBasin.lindrag
  walldrag := exBasin.walldrag
  farms F h := by simp at h
  visc := exBasin.visc

example (u0 : State square) (h0 : u0 ∈ (Submodule.pi Set.univ fun _ => linears).prod linears) (tEnd : ℝ) :=
  C129_waves calmBasin ⟨rfl, rfl, fun _ => rfl⟩ linears_pair (fun _ => show (0 : ℝ) < 1 / 6 by norm_num) inferInstance u0 h0 tEnd

example (c0 : Sc square) (h0 : c0 ∈ linears) (tEnd : ℝ) :=
  C129_tracer exCarried linears_ext (fun _ => show (0 : ℝ) < 1 / 6 by norm_num) inferInstance c0 h0 tEnd

end Verif.Converge
