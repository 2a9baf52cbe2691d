import Verif.Forcing.Model
import Mathlib.Tactic.Linarith
import Mathlib.Tactic.Positivity
import Mathlib.Tactic.NormNum
import Mathlib.Tactic.FieldSimp
import Mathlib.Topology.Algebra.Order.Field
import Mathlib.Analysis.Calculus.Deriv.MeanValue

/-!
Properties C37 (water depth), C38 (wind stress), C39 (tidal forcing).
-/

namespace Verif.Forcing

open Filter Topology

/-! ### C37 -/

/-- Unmodified depth. -/
def Depth.raw (d : Depth) (eta : ℝ) : ℝ := d.bathymetry + eta

theorem total_eq (d : Depth) (hn : d.nonlinear = true) (hw : d.wetdry = true) (eta : ℝ) :
    d.total eta = (d.raw eta + Real.sqrt (d.raw eta ^ 2 + d.alpha ^ 2)) / 2 := by
  simp only [Depth.total, Depth.displacement, hn, hw, Depth.raw, if_true]; ring

theorem sqrt_gt_abs (h a : ℝ) (ha : a ≠ 0) : |h| < Real.sqrt (h ^ 2 + a ^ 2) := by
  apply Real.lt_sqrt_of_sq_lt
  rw [sq_abs]
  have : 0 < a ^ 2 := by positivity
  linarith

/-- C37: without wetting and drying the depth is bathymetry plus elevation, in linear mode the
bathymetry alone. -/
theorem C37_plain (d : Depth) (eta : ℝ) :
    (d.nonlinear = false → d.total eta = d.bathymetry) ∧
    (d.nonlinear = true → d.wetdry = false → d.total eta = d.bathymetry + eta) := by
  constructor
  · intro h; simp [Depth.total, h]
  · intro h1 h2; simp [Depth.total, Depth.displacement, h1, h2]

/-- C37: with wetting and drying the depth is positive and larger than the unmodified depth, for
every elevation. -/
theorem C37_positive (d : Depth) (hn : d.nonlinear = true) (hw : d.wetdry = true)
    (ha : 0 < d.alpha) (eta : ℝ) : 0 < d.total eta ∧ d.bathymetry + eta < d.total eta := by
  have h := sqrt_gt_abs (d.raw eta) d.alpha ha.ne'
  have h1 := neg_abs_le (d.raw eta)
  have h2 := le_abs_self (d.raw eta)
  rw [total_eq d hn hw]
  have : d.raw eta = d.bathymetry + eta := rfl
  constructor <;> linarith

/-- C37: the depth is strictly increasing in the elevation, with slope strictly between 0 and 1. -/
theorem C37_slope (d : Depth) (hn : d.nonlinear = true) (hw : d.wetdry = true)
    (ha : 0 < d.alpha) (eta : ℝ) :
    ∃ s, HasDerivAt d.total s eta ∧ 0 < s ∧ s < 1 := by
  set h := d.raw eta with hh
  have hs := sqrt_gt_abs h d.alpha ha.ne'
  set r := Real.sqrt (h ^ 2 + d.alpha ^ 2) with hr
  have hr0 : 0 < r := lt_of_le_of_lt (abs_nonneg h) hs
  have hpos : h ^ 2 + d.alpha ^ 2 ≠ 0 := by positivity
  refine ⟨(1 + h / r) / 2, ?_, ?_, ?_⟩
  · have hf : d.total = fun e => (d.raw e + Real.sqrt (d.raw e ^ 2 + d.alpha ^ 2)) / 2 := by
      funext e; exact total_eq d hn hw e
    rw [hf]
    have h1 : HasDerivAt d.raw 1 eta := by
      have := (hasDerivAt_id eta).const_add d.bathymetry
      exact this
    have h2 : HasDerivAt (fun e => d.raw e ^ 2 + d.alpha ^ 2) (2 * h) eta := by
      have := (h1.fun_pow 2).add_const (d.alpha ^ 2)
      refine this.congr_deriv ?_
      norm_num [hh]
    have h3 := h2.sqrt hpos
    have h4 := (h1.fun_add h3).div_const 2
    refine h4.congr_deriv ?_
    rw [← hh, ← hr]
    field_simp
  · have : -1 < h / r := by rw [lt_div_iff₀ hr0]; linarith [neg_abs_le h]
    linarith
  · have : h / r < 1 := by rw [div_lt_one hr0]; linarith [le_abs_self h]
    linarith

/-- C37: consequently for two elevations the depth difference is positive and smaller than the
elevation difference. -/
theorem C37_increasing (d : Depth) (hn : d.nonlinear = true) (hw : d.wetdry = true)
    (ha : 0 < d.alpha) (e1 e2 : ℝ) (h : e1 < e2) :
    d.total e1 < d.total e2 ∧ d.total e2 - d.total e1 < e2 - e1 := by
  have hd : ∀ x, ∃ s, HasDerivAt d.total s x ∧ 0 < s ∧ s < 1 := C37_slope d hn hw ha
  obtain ⟨c, -, hc⟩ := exists_hasDerivAt_eq_slope d.total (fun x => (hd x).choose) h
    (fun x _ => ((hd x).choose_spec.1).continuousAt.continuousWithinAt)
    (fun x _ => (hd x).choose_spec.1)
  have h1 := (hd c).choose_spec.2
  rw [hc] at h1
  have h0 : 0 < e2 - e1 := by linarith
  constructor
  · have := (div_pos_iff_of_pos_right h0).1 h1.1; linarith
  · have := (div_lt_one h0).1 h1.2; linarith

/-- C37: where the unmodified depth is non-negative the modification is at most half of alpha. -/
theorem C37_close (d : Depth) (hn : d.nonlinear = true) (hw : d.wetdry = true)
    (ha : 0 < d.alpha) (eta : ℝ) (h : 0 ≤ d.bathymetry + eta) :
    d.total eta - (d.bathymetry + eta) ≤ d.alpha / 2 := by
  rw [total_eq d hn hw]
  have hr : d.raw eta = d.bathymetry + eta := rfl
  have : Real.sqrt (d.raw eta ^ 2 + d.alpha ^ 2) ≤ d.raw eta + d.alpha := by
    rw [hr]
    apply Real.sqrt_le_iff.2
    constructor
    · linarith
    · nlinarith
  linarith

/-- C37: the modification decays at least like `alpha^2 / (4 H)` with the unmodified depth `H`. -/
theorem C37_deep_bound (d : Depth) (hn : d.nonlinear = true) (hw : d.wetdry = true)
    (eta : ℝ) (h : 0 < d.bathymetry + eta) :
    d.total eta - (d.bathymetry + eta) ≤ d.alpha ^ 2 / (4 * (d.bathymetry + eta)) := by
  rw [total_eq d hn hw]
  have hr : d.raw eta = d.bathymetry + eta := rfl
  have : Real.sqrt (d.raw eta ^ 2 + d.alpha ^ 2) ≤ d.raw eta + d.alpha ^ 2 / (2 * d.raw eta) := by
    rw [hr]
    apply Real.sqrt_le_iff.2
    constructor
    · positivity
    · have e : (d.bathymetry + eta + d.alpha ^ 2 / (2 * (d.bathymetry + eta))) ^ 2 =
          (d.bathymetry + eta) ^ 2 + d.alpha ^ 2 +
            (d.alpha ^ 2 / (2 * (d.bathymetry + eta))) ^ 2 := by field_simp; ring
      rw [e]
      have := sq_nonneg (d.alpha ^ 2 / (2 * (d.bathymetry + eta)))
      linarith
  rw [hr] at this ⊢
  have e : d.alpha ^ 2 / (4 * (d.bathymetry + eta)) =
      d.alpha ^ 2 / (2 * (d.bathymetry + eta)) / 2 := by field_simp; ring
  rw [e]
  linarith

/-- C37: the modified depth tends to the unmodified one as the water gets deeper. -/
theorem C37_deep_limit (d : Depth) (hn : d.nonlinear = true) (hw : d.wetdry = true)
    (ha : 0 < d.alpha) :
    Tendsto (fun eta => d.total eta - (d.bathymetry + eta)) atTop (𝓝 0) := by
  have h1 : Tendsto (fun eta : ℝ => d.bathymetry + eta) atTop atTop :=
    tendsto_atTop_add_const_left atTop d.bathymetry tendsto_id
  have h2 : Tendsto (fun eta : ℝ => d.alpha ^ 2 / (4 * (d.bathymetry + eta))) atTop (𝓝 0) :=
    Tendsto.div_atTop tendsto_const_nhds (h1.const_mul_atTop (by norm_num))
  refine tendsto_of_tendsto_of_tendsto_of_le_of_le' tendsto_const_nhds h2 ?_ ?_
  · exact Eventually.of_forall (fun eta => by have := (C37_positive d hn hw ha eta).2; linarith)
  · filter_upwards [eventually_gt_atTop (-d.bathymetry)] with eta he
    exact C37_deep_bound d hn hw eta (by linarith)

/-- C37, boundary of the hypothesis: the solver also accepts `alpha = 0` (solver2d.py:293); then the
depth is `max (h + eta) 0`, which is zero on dry land. -/
theorem C37_alpha_zero (d : Depth) (hn : d.nonlinear = true) (hw : d.wetdry = true)
    (ha : d.alpha = 0) (eta : ℝ) : d.total eta = max (d.bathymetry + eta) 0 := by
  rw [total_eq d hn hw, ha]
  have hr : d.raw eta = d.bathymetry + eta := rfl
  have e : d.raw eta ^ 2 + 0 ^ 2 = d.raw eta ^ 2 := by ring
  rw [e, Real.sqrt_sq_eq_abs, hr]
  rcases le_total 0 (d.bathymetry + eta) with h | h
  · rw [abs_of_nonneg h, max_eq_left h]; ring
  · rw [abs_of_nonpos h, max_eq_right h]; ring

/-- C37: the automatic parameter respects the given bounds, and is positive whenever a positive
minimum is given. -/
theorem C37_auto_alpha (w g : ℝ × ℝ) (amin amax : Option ℝ) :
    (∀ m, amin = some m → m ≤ autoAlpha w g amin amax) ∧
    (∀ M, amax = some M → (∀ m, amin = some m → m ≤ M) → autoAlpha w g amin amax ≤ M) ∧
    (amin = none → amax = none → autoAlpha w g amin amax = w.1 * |g.1| + w.2 * |g.2|) := by
  refine ⟨?_, ?_, ?_⟩
  · rintro m rfl; simp [autoAlpha]
  · rintro M rfl hm
    cases amin with
    | none => simp [autoAlpha]
    | some m => simp [autoAlpha, hm m rfl]
  · rintro rfl rfl; simp [autoAlpha]

/-- C37: the automatic parameter without a minimum is zero over flat bathymetry, so positivity of
the depth is lost there. -/
theorem C37_auto_alpha_flat (w : ℝ × ℝ) : autoAlpha w (0, 0) none (some 2) = 0 := by
  simp [autoAlpha]

/-- Non-vacuity: dry land one metre above the surface. -/
example : let d : Depth := ⟨-3, true, true, 0.5⟩
    d.nonlinear = true ∧ d.wetdry = true ∧ 0 < d.alpha ∧ d.bathymetry + 2 < 0 ∧ 0 < d.total 2 := by
  refine ⟨rfl, rfl, by norm_num, by norm_num, ?_⟩
  exact (C37_positive ⟨-3, true, true, 0.5⟩ rfl rfl (by norm_num) 2).1

/-! ### C38 -/

theorem drag_pos (m : WindMethod) (hm : m ≠ .other) (w : ℝ) (hw : 0 ≤ w) :
    ∃ cd, dragCoefficient m w = some cd ∧ 0 < cd := by
  cases m with
  | other => exact absurd rfl hm
  | largePond1981 =>
    refine ⟨_, rfl, ?_⟩
    split
    · positivity
    · norm_num
  | smithBanke1975 => exact ⟨_, rfl, by positivity⟩
  | largeYeager2009 =>
    refine ⟨_, rfl, ?_⟩
    split
    · norm_num
    · rename_i h
      have h33 : w ≤ 33 := not_lt.1 h
      have h5 : w ^ 5 ≤ 33 ^ 5 := by gcongr
      have h6 : w ^ 6 ≤ 33 ^ 5 * w := by
        have : w ^ 6 = w ^ 5 * w := by ring
        rw [this]; gcongr
      have hq : 0 ≤ 2.7 / (w + 1e-3) := by positivity
      have : 0 ≤ w / 13.09 - 3.14807e-10 * w ^ 6 := by
        have e : w / 13.09 = w * (1 / 13.09) := by ring
        rw [e]
        have k : (3.14807e-10 : ℝ) * (33 ^ 5) ≤ 1 / 13.09 := by norm_num
        nlinarith
      have : 0 < 2.7 / (w + 1e-3) + 0.142 + w / 13.09 - 3.14807e-10 * w ^ 6 := by linarith
      exact mul_pos (by norm_num) this

/-- C38: for every supported formula and every wind the stress is a non-negative multiple of the
wind (a positive one unless the wind is zero) and depends on the wind speed only. -/
theorem C38_parallel (m : WindMethod) (hm : m ≠ .other) :
    ∃ c : ℝ → ℝ, (∀ s, 0 < s → 0 < c s) ∧ c 0 = 0 ∧
      ∀ u v : ℝ, windStress m u v =
        some (c (Real.sqrt (u ^ 2 + v ^ 2)) * u, c (Real.sqrt (u ^ 2 + v ^ 2)) * v) := by
  refine ⟨fun s => ((dragCoefficient m s).getD 0) * rhoAir * s, ?_, ?_, ?_⟩
  · intro s hs
    obtain ⟨cd, h1, h2⟩ := drag_pos m hm s hs.le
    have : (0 : ℝ) < rhoAir := by norm_num [rhoAir]
    simp only [h1, Option.getD_some]
    positivity
  · simp
  · intro u v
    obtain ⟨cd, h1, -⟩ := drag_pos m hm _ (Real.sqrt_nonneg (u ^ 2 + v ^ 2))
    simp [windStress, h1]

/-- C38: no wind, no stress. -/
theorem C38_zero (m : WindMethod) (hm : m ≠ .other) : windStress m 0 0 = some (0, 0) := by
  obtain ⟨c, -, -, h⟩ := C38_parallel m hm
  rw [h]; simp

/-- C38: turning the wind (by any rotation or reflection of the plane) turns the stress the same
way. -/
theorem C38_rotation (m : WindMethod) (a b c d : ℝ) (h1 : a ^ 2 + c ^ 2 = 1) (h2 : b ^ 2 + d ^ 2 = 1)
    (h3 : a * b + c * d = 0) (u v : ℝ) :
    windStress m (a * u + b * v) (c * u + d * v) =
      (windStress m u v).map (fun s => (a * s.1 + b * s.2, c * s.1 + d * s.2)) := by
  have e : (a * u + b * v) ^ 2 + (c * u + d * v) ^ 2 = u ^ 2 + v ^ 2 := by
    have : (a * u + b * v) ^ 2 + (c * u + d * v) ^ 2 =
      (a ^ 2 + c ^ 2) * u ^ 2 + (b ^ 2 + d ^ 2) * v ^ 2 + 2 * (a * b + c * d) * (u * v) := by ring
    rw [this, h1, h2, h3]; ring
  simp only [windStress, e, Option.map_map]
  congr 1
  funext cd
  simp only [Function.comp_apply, Prod.mk.injEq]
  constructor <;> ring

/-- C38: reversing the wind reverses the stress. -/
theorem C38_odd (m : WindMethod) (u v : ℝ) :
    windStress m (-u) (-v) = (windStress m u v).map (fun s => (-s.1, -s.2)) := by
  have := C38_rotation m (-1) 0 0 (-1) (by norm_num) (by norm_num) (by norm_num) u v
  simpa using this

/-- C38: the magnitude of the stress is air density times drag coefficient times wind speed
squared. -/
theorem C38_magnitude (m : WindMethod) (u v cd : ℝ)
    (h : dragCoefficient m (Real.sqrt (u ^ 2 + v ^ 2)) = some cd) (t : ℝ × ℝ)
    (ht : windStress m u v = some t) :
    t.1 ^ 2 + t.2 ^ 2 = (1.22 * cd * (u ^ 2 + v ^ 2)) ^ 2 := by
  simp only [windStress, h, Option.map_some, Option.some.injEq] at ht
  subst ht
  have hs := Real.sq_sqrt (show 0 ≤ u ^ 2 + v ^ 2 by positivity)
  simp only [rhoAir]
  have : (cd * 1.22 * √(u ^ 2 + v ^ 2) * u) ^ 2 + (cd * 1.22 * √(u ^ 2 + v ^ 2) * v) ^ 2 =
      (cd * 1.22) ^ 2 * (√(u ^ 2 + v ^ 2)) ^ 2 * (u ^ 2 + v ^ 2) := by ring
  rw [this, hs]; ring

/-- C38: the published values of the drag coefficient at reference speeds: Smith and Banke at
10 m/s, Large and Pond below and above 11 m/s, Large and Yeager above 33 m/s. -/
theorem C38_reference_values :
    dragCoefficient .smithBanke1975 10 = some 1.29e-3 ∧
    (∀ w, w ≤ 11 → dragCoefficient .largePond1981 w = some 1.2e-3) ∧
    dragCoefficient .largePond1981 20 = some 1.79e-3 ∧
    (∀ w, 33 < w → dragCoefficient .largeYeager2009 w = some 2.34e-3) := by
  refine ⟨?_, ?_, ?_, ?_⟩
  · simp only [dragCoefficient]; norm_num
  · intro w hw; simp [dragCoefficient, not_lt.2 hw]
  · simp only [dragCoefficient]; norm_num
  · intro w hw; simp [dragCoefficient, hw]

/-- C38: an unsupported name is an error, not a silent zero. -/
theorem C38_unsupported (u v : ℝ) : windStress .other u v = none := by
  simp [windStress, dragCoefficient]

/-- Non-vacuity: a wind of 5 m/s with stress of strictly positive magnitude. -/
example : ∃ t, windStress .smithBanke1975 3 4 = some t ∧ 0 < t.1 ∧ 0 < t.2 := by
  have h5 : Real.sqrt (3 ^ 2 + 4 ^ 2) = 5 := by
    rw [show (3 : ℝ) ^ 2 + 4 ^ 2 = 5 ^ 2 by norm_num]; exact Real.sqrt_sq (by norm_num)
  refine ⟨_, rfl, ?_, ?_⟩ <;> simp only [h5, rhoAir] <;> norm_num

/-! ### C39 -/

section C39

variable {N K : Type} [DecidableEq N]

theorem setElev_spec [Zero K] (db : Lookup N K) (nodes : List N) (e : N → K) (n : N) :
    setElev db nodes e n = if n ∈ nodes then (db n).getD 0 else e n := by
  induction nodes generalizing e with
  | nil => simp [setElev]
  | cons m ms ih =>
    simp only [setElev, ih, List.mem_cons]
    by_cases h1 : n ∈ ms
    · simp [h1]
    · by_cases h2 : n = m
      · subst h2; simp [h1]
      · simp [h1, h2]

/-- C39, elevation: boundary nodes with data get the database value, boundary nodes without data get
zero, all other nodes keep their value; also when velocity is computed. -/
theorem C39_elevation [Zero K] (nodes : List N) (eDb uDb vDb : Lookup N K)
    (rot : N → K → K → K × K) (elev : N → K) (uv : Option (N → K × K)) (n : N) :
    (n ∈ nodes → ∀ x, eDb n = some x → (setTidal nodes eDb uDb vDb rot elev uv).1 n = x) ∧
    (n ∈ nodes → eDb n = none → (setTidal nodes eDb uDb vDb rot elev uv).1 n = 0) ∧
    (n ∉ nodes → (setTidal nodes eDb uDb vDb rot elev uv).1 n = elev n) := by
  have key : (setTidal nodes eDb uDb vDb rot elev uv).1 n =
      if n ∈ nodes then (eDb n).getD 0 else elev n := by
    by_cases hn : nodes = []
    · subst hn; simp [setTidal]
    · simp only [setTidal, hn, if_false]
      cases uv <;> simp [setElev_spec]
  rw [key]
  refine ⟨?_, ?_, ?_⟩
  · intro h x hx; simp [h, hx]
  · intro h hx; simp [h, hx]
  · intro h; simp [h]

theorem setVel_spec (uDb vDb : Lookup N K) (nodes : List N) (w : (N → K) × (N → K)) (n : N) :
    (setVel uDb vDb nodes w).1 n = (if n ∈ nodes then (uDb n).getD (w.1 n) else w.1 n) ∧
    (setVel uDb vDb nodes w).2 n =
      (if n ∈ nodes ∧ (uDb n).isSome = true then (vDb n).getD (w.2 n) else w.2 n) := by
  induction nodes generalizing w with
  | nil => simp [setVel]
  | cons m ms ih =>
    obtain ⟨lon, lat⟩ := w
    simp only [setVel]
    cases hu : uDb m with
    | none =>
      obtain ⟨i1, i2⟩ := ih (lon, lat)
      rw [i1, i2]
      by_cases h : n = m
      · subst h; simp [hu]
      · simp [h]
    | some u =>
      simp only
      cases hv : vDb m with
      | none =>
        obtain ⟨i1, i2⟩ := ih (fun x => if x = m then u else lon x, lat)
        simp only at i1 i2 ⊢
        rw [i1, i2]
        by_cases h : n = m
        · subst h; by_cases hm : n ∈ ms <;> simp [hu, hv, hm]
        · simp [h]
      | some v =>
        obtain ⟨i1, i2⟩ := ih (fun x => if x = m then u else lon x,
          fun x => if x = m then v else lat x)
        simp only at i1 i2 ⊢
        rw [i1, i2]
        by_cases h : n = m
        · subst h; by_cases hm : n ∈ ms <;> simp [hu, hv, hm]
        · simp [h]

theorem setTidal_vel [Zero K] (nodes : List N) (hne : nodes ≠ []) (eDb uDb vDb : Lookup N K)
    (rot : N → K → K → K × K) (elev : N → K) (uv : N → K × K) :
    (setTidal nodes eDb uDb vDb rot elev (some uv)).2 =
      some (fun n => rot n ((setVel uDb vDb nodes (fun _ => 0, fun _ => 0)).1 n)
        ((setVel uDb vDb nodes (fun _ => 0, fun _ => 0)).2 n)) := by
  simp only [setTidal, hne, if_false]

/-- C39, velocity, provable part: on a process that has boundary nodes, boundary nodes with data for
both components get the rotated database value; nodes without data for the first component and
nodes off the boundary get the rotated zero vector, which is zero.  Missing: nodes with data for the
first component only (`C39_half_data_violated`) and processes without boundary nodes
(`C39_empty_set`). -/
theorem C39_velocity_partial [Zero K] (nodes : List N) (hne : nodes ≠ []) (eDb uDb vDb : Lookup N K)
    (rot : N → K → K → K × K) (hrot : ∀ n, rot n 0 0 = (0, 0)) (elev : N → K) (uv : N → K × K) :
    ∃ w, (setTidal nodes eDb uDb vDb rot elev (some uv)).2 = some w ∧ ∀ n,
      (n ∈ nodes → ∀ u v, uDb n = some u → vDb n = some v → w n = rot n u v) ∧
      (n ∈ nodes → uDb n = none → w n = (0, 0)) ∧
      (n ∉ nodes → w n = (0, 0)) := by
  refine ⟨_, setTidal_vel nodes hne eDb uDb vDb rot elev uv, ?_⟩
  intro n
  obtain ⟨h1, h2⟩ := setVel_spec uDb vDb nodes (fun _ => (0 : K), fun _ => (0 : K)) n
  simp only at h1 h2
  refine ⟨?_, ?_, ?_⟩
  · intro hn u v hu hv; rw [h1, h2]; simp [hn, hu, hv]
  · intro hn hu; rw [h1, h2]; simp [hn, hu, hrot]
  · intro hn; rw [h1, h2]; simp [hn, hrot]

/-- C39 is violated: a boundary node where only the second velocity component is missing keeps the
first component although the error handler sets the velocity to zero. -/
theorem C39_half_data_violated [Zero K] (nodes : List N) (eDb uDb vDb : Lookup N K)
    (rot : N → K → K → K × K) (elev : N → K) (uv : N → K × K) (n : N) (hn : n ∈ nodes) (u : K)
    (hu : uDb n = some u) (hv : vDb n = none) :
    ∃ w, (setTidal nodes eDb uDb vDb rot elev (some uv)).2 = some w ∧ w n = rot n u 0 := by
  have hne : nodes ≠ [] := List.ne_nil_of_mem hn
  refine ⟨_, setTidal_vel nodes hne eDb uDb vDb rot elev uv, ?_⟩
  obtain ⟨h1, h2⟩ := setVel_spec uDb vDb nodes (fun _ => (0 : K), fun _ => (0 : K)) n
  simp only at h1 h2
  simp [h1, h2, hn, hu, hv]

/-- A process without boundary nodes changes nothing at all (velocities off the boundary are not
zeroed there). -/
theorem C39_empty_set [Zero K] (eDb uDb vDb : Lookup N K) (rot : N → K → K → K × K) (elev : N → K)
    (uv : Option (N → K × K)) : setTidal [] eDb uDb vDb rot elev uv = (elev, uv) := by
  simp [setTidal]

/-- Non-vacuity: three boundary nodes, one without data, one with half the data; node 7 is off the
boundary. -/
example :
    let r := setTidal (N := ℕ) (K := ℕ) [1, 2, 3] (fun n => if n = 2 then none else some (n * 10))
      (fun n => if n = 2 then none else some n) (fun n => if n = 1 then some 5 else none)
      (fun _ u v => (u, v)) (fun _ => 99) (some (fun _ => (99, 99)));
    [r.1 1, r.1 2, r.1 3, r.1 7] = [10, 0, 30, 99] ∧
    r.2.map (fun w => [w 1, w 2, w 3, w 7]) = some [(1, 5), (0, 0), (3, 0), (0, 0)] := by decide

end C39

/-- C38: the stress field is the rotated stress of the interpolated wind; pressure given in
hectopascals is converted, other units leave the field as it was. -/
theorem C38_set_fields (rot : ℝ → ℝ → ℝ × ℝ) (e n old p : ℝ) :
    (∃ c : ℝ, 0 ≤ c ∧ setStress rot e n = some (rot (c * e) (c * n))) ∧
    setPressure .pa old p = p ∧ setPressure .hpa old p = 100 * p ∧ setPressure .other old p = old := by
  refine ⟨?_, rfl, by simp [setPressure, mul_comm], rfl⟩
  obtain ⟨c, h1, h2, h3⟩ := C38_parallel .largeYeager2009 (by decide)
  refine ⟨c (Real.sqrt (e ^ 2 + n ^ 2)), ?_, by simp [setStress, h3]⟩
  rcases (Real.sqrt_nonneg (e ^ 2 + n ^ 2)).eq_or_lt with h | h
  · rw [← h, h2]
  · exact (h1 _ h).le

end Verif.Forcing
