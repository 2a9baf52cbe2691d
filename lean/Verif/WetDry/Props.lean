import Verif.WetDry.Model
import Verif.Swe.Props
import Mathlib.Analysis.SpecialFunctions.Sqrt
import Mathlib.Analysis.Calculus.Deriv.Add
import Mathlib.Analysis.Calculus.Deriv.Mul
import Mathlib.Analysis.Calculus.Deriv.Pow

/-!
C126: water volume in time stepping with wetting and drying.
-/

namespace Verif.WetDry

open Verif.Dg Verif.Swe

variable {m : Mesh 2}

/-- The water in the domain: the integral of the total depth. -/
noncomputable def volume (T : Term m) (e : Sc m) : ℝ := m.dx fun x => depthAt T (.cell x) (e (.cell x)).v

/-- Water that enters through the boundary and from sources per time. -/
noncomputable def inflow (T : Term m) (K : Coeffs m) (bc : ℕ → Option (Funcs m)) (u nl : State m) : ℝ :=
  -(∑ b, m.wB b * volFlux T bc u.1 u.2 nl.1 nl.2 (m.marker b) b) +
    (K.volume.map fun s => m.dx fun x => (s (.cell x)).v).getD 0

/-- Discontinuous velocities on a flat mesh, the depth that follows the surface. -/
structure Usual (T : Term m) : Prop where
  flat : m.Flat
  dg : T.uDg = true
  nonlinear : T.depth.nonlinear = true

/-- Closed boundaries without sources. -/
structure Closed (S : Setup m) : Prop where
  bnd : ∀ k ∈ m.markers, IsClosed (S.bc k)
  source : S.K.volume = none
  sourceOld : S.Kold.volume = none

theorem continuity_one (T : Term m) (K : Coeffs m) (bc : ℕ → Option (Funcs m)) (u nl : State m) (hT : Usual T) :
    continuity T K bc u.1 u.2 nl.1 nl.2 (cst m 1) = inflow T K bc u nl :=
  C76_total T K bc u.1 u.2 nl.1 nl.2 hT.dg hT.flat

theorem res_one (S : Setup m) (old u : State m) (hT : Usual S.T) :
    S.res old u (cst m 1) = inflow S.T S.K S.bc u (if S.semi then old else u) := by
  rw [← continuity_one _ _ _ _ _ hT, Setup.res]
  cases S.semi <;> rfl

theorem inflow_closed (T : Term m) (K : Coeffs m) (bc : ℕ → Option (Funcs m)) (u nl : State m) (hT : Usual T)
    (hb : ∀ k ∈ m.markers, IsClosed (bc k)) (hs : K.volume = none) : inflow T K bc u nl = 0 := by
  rw [← continuity_one _ _ _ _ _ hT]
  exact C76_conserved T K bc u.1 u.2 nl.1 nl.2 hT.dg hT.flat hb hs

/-! ### Newton's method -/

/-- C126: Newton's method is used unless linearisation or another solver is asked for. -/
theorem C126_solver (semi : Bool) (user : Option Snes) :
    snesType semi user = .newtonls ↔ user = some .newtonls ∨ (user = none ∧ semi = false) := by
  cases semi <;> cases user <;> simp [snesType]

/-- C126: a step of Crank-Nicolson changes the volume of water by what enters, at the two times with their weights. -/
theorem C126_crank (S : Setup m) (theta : ℝ) (user : Option Snes) (H : Set (Sc m)) (old new : State m) (hT : Usual S.T)
    (h1 : cst m 1 ∈ H) (hs : snesType S.semi user = .newtonls) (h : CnStep S theta user H old new) :
    volume S.T new.2 - volume S.T old.2 =
      S.dt * (theta * inflow S.T S.K S.bc new (if S.semi then old else new) +
        (1 - theta) * inflow S.T S.Kold S.bc old old) := by
  unfold CnStep at h
  rw [hs] at h
  have h := h _ h1
  have hm := C76_mass S.T old.2 new.2 hT.nonlinear
  unfold cnForm at h
  rw [res_one _ _ _ hT, continuity_one _ _ _ _ _ hT] at h
  unfold volume
  linarith

/-- C126: in a closed basin any number of steps, of any length, keeps the volume. -/
theorem C126_crank_run (S : ℕ → Setup m) (T : Term m) (theta : ℝ) (user : Option Snes) (H : Set (Sc m)) (x : ℕ → State m)
    (hT : Usual T) (hST : ∀ n, (S n).T = T) (hc : ∀ n, Closed (S n)) (h1 : cst m 1 ∈ H)
    (hs : ∀ n, snesType (S n).semi user = .newtonls) (h : ∀ n, CnStep (S n) theta user H (x n) (x (n + 1))) (n : ℕ) :
    volume T (x n).2 = volume T (x 0).2 := by
  induction n with
  | zero => rfl
  | succ n ih =>
    have e := C126_crank (S n) theta user H (x n) (x (n + 1)) (by rw [hST]; exact hT) h1 (hs n) (h n)
    rw [inflow_closed _ _ _ _ _ (by rw [hST]; exact hT) (hc n).bnd (hc n).source,
      inflow_closed _ _ _ _ _ (by rw [hST]; exact hT) (hc n).bnd (hc n).sourceOld, hST] at e
    rw [← ih]
    linarith

/-- The integral of a tendency. -/
noncomputable def total (k : Sc m) : ℝ := m.dx fun x => (k (.cell x)).v

/-- C126: a step of a diagonally implicit method in solution form changes the volume by what enters at the stages, with the
weights of the method, which are the last row of the table. -/
theorem C126_uform (S : ℕ → Setup m) (T : Term m) (dt : ℝ) (a : ℕ → ℕ → ℝ) (user : Option Snes) (H : Set (Sc m)) (n : ℕ)
    (old : State m) (u : ℕ → State m) (k : ℕ → Sc m) (hT : Usual T) (hST : ∀ i, (S i).T = T) (hdt : ∀ i, (S i).dt = dt)
    (h0 : dt ≠ 0) (ha : ∀ i < n, a i i ≠ 0) (h1 : cst m 1 ∈ H) (hs : ∀ i, snesType (S i).semi user = .newtonls)
    (h : UStep S a user H n old u k) :
    volume T (u n).2 - volume T old.2 =
      dt * ∑ i ∈ Finset.range (n + 1), a n i * inflow T (S i).K (S i).bc (u i) (if (S i).semi then old else u i) := by
  obtain ⟨hst, htd⟩ := h
  have stage : ∀ i ≤ n, volume T (u i).2 - volume T old.2 =
      dt * a i i * inflow T (S i).K (S i).bc (u i) (if (S i).semi then old else u i) +
        ∑ j ∈ Finset.range i, dt * a i j * total (k j) := by
    intro i hi
    have e := hst i hi
    rw [hs i] at e
    have e := e _ h1
    have hm := C76_mass T old.2 (u i).2 hT.nonlinear
    have hr := res_one (S i) old (u i) (by rw [hST]; exact hT)
    simp only [stageForm, hr, hST, hdt, cst_apply, Jet.const_v, mul_one] at e
    unfold volume total
    linarith
  have tend : ∀ i < n, total (k i) = inflow T (S i).K (S i).bc (u i) (if (S i).semi then old else u i) := by
    intro i hi
    have e := htd i hi _ h1
    have hm := C76_mass T old.2 (u i).2 hT.nonlinear
    simp only [tendencyForm, hST, hdt, cst_apply, Jet.const_v, mul_one] at e
    have e2 := stage i hi.le
    unfold volume total at e2
    have : dt * a i i * (total (k i) - inflow T (S i).K (S i).bc (u i) (if (S i).semi then old else u i)) = 0 := by
      unfold total
      rw [hm] at e
      linarith
    rcases mul_eq_zero.1 this with h' | h'
    · exact absurd h' (mul_ne_zero h0 (ha i hi))
    · linarith
  rw [stage n le_rfl, Finset.sum_range_succ, mul_add, Finset.mul_sum]
  have : ∑ j ∈ Finset.range n, dt * a n j * total (k j) =
      ∑ j ∈ Finset.range n, dt * (a n j * inflow T (S j).K (S j).bc (u j) (if (S j).semi then old else u j)) :=
    Finset.sum_congr rfl fun j hj => by rw [tend j (Finset.mem_range.1 hj)]; ring
  rw [this]
  ring

/-- C126: in a closed basin the step keeps the volume. -/
theorem C126_uform_closed (S : ℕ → Setup m) (T : Term m) (dt : ℝ) (a : ℕ → ℕ → ℝ) (user : Option Snes) (H : Set (Sc m))
    (n : ℕ) (old : State m) (u : ℕ → State m) (k : ℕ → Sc m) (hT : Usual T) (hST : ∀ i, (S i).T = T)
    (hdt : ∀ i, (S i).dt = dt) (h0 : dt ≠ 0) (ha : ∀ i < n, a i i ≠ 0) (h1 : cst m 1 ∈ H)
    (hs : ∀ i, snesType (S i).semi user = .newtonls) (hc : ∀ i, Closed (S i)) (h : UStep S a user H n old u k) :
    volume T (u n).2 = volume T old.2 := by
  have e := C126_uform S T dt a user H n old u k hT hST hdt h0 ha h1 hs h
  rw [Finset.sum_eq_zero fun i _ => by
    rw [inflow_closed _ _ _ _ _ hT (hc i).bnd (hc i).source, mul_zero]] at e
  linarith

/-! ### One linear solve -/

/-- How the mass term changes with the elevation at a point of depth `h`. -/
noncomputable def slope (h a : ℝ) : ℝ := (1 + h / Real.sqrt (h * h + a * a)) / 2

/-- The depth with wetting and drying is convex: it is above its tangent. -/
theorem tangent (h d a : ℝ) (ha : a ≠ 0) :
    (h + Real.sqrt (h * h + a * a)) / 2 + slope h a * d ≤ (h + d + Real.sqrt ((h + d) * (h + d) + a * a)) / 2 ∧
      ((h + Real.sqrt (h * h + a * a)) / 2 + slope h a * d = (h + d + Real.sqrt ((h + d) * (h + d) + a * a)) / 2 →
        d = 0) := by
  set r := Real.sqrt (h * h + a * a) with hr
  set s := Real.sqrt ((h + d) * (h + d) + a * a) with hs
  have ha2 : 0 < a * a := mul_self_pos.2 ha
  have hr0 : 0 < r := Real.sqrt_pos.2 (by nlinarith [mul_self_nonneg h])
  have hs0 : 0 < s := Real.sqrt_pos.2 (by nlinarith [mul_self_nonneg (h + d)])
  have er : r * r = h * h + a * a := Real.mul_self_sqrt (by nlinarith [mul_self_nonneg h])
  have es : s * s = (h + d) * (h + d) + a * a := Real.mul_self_sqrt (by nlinarith [mul_self_nonneg (h + d)])
  have key : (r * s) * (r * s) - (h * (h + d) + a * a) * (h * (h + d) + a * a) = a * a * (d * d) := by
    have : (r * s) * (r * s) = (r * r) * (s * s) := by ring
    rw [this, er, es]
    ring
  have hrs : 0 < r * s := mul_pos hr0 hs0
  have hd2 : 0 ≤ a * a * (d * d) := mul_nonneg ha2.le (mul_self_nonneg d)
  have hle : h * (h + d) + a * a ≤ r * s := by
    by_contra hn
    have hn := not_le.1 hn
    nlinarith [mul_lt_mul'' hn hn hrs.le hrs.le]
  have ediff : (h + d + s) / 2 - ((h + r) / 2 + slope h a * d) = (r * s - (h * (h + d) + a * a)) / (2 * r) := by
    unfold slope
    rw [← hr]
    field_simp
    linear_combination -er
  constructor
  · have : 0 ≤ (r * s - (h * (h + d) + a * a)) / (2 * r) := div_nonneg (by linarith) (by linarith)
    linarith
  · intro he
    have h0 : (r * s - (h * (h + d) + a * a)) / (2 * r) = 0 := by rw [← ediff]; linarith
    have h0 : r * s - (h * (h + d) + a * a) = 0 := by
      rcases div_eq_zero_iff.1 h0 with h' | h'
      · exact h'
      · linarith
    have h2 : a * a * (d * d) = 0 := by
      rw [← key]
      have : r * s = h * (h + d) + a * a := by linarith
      rw [this]; ring
    rcases mul_eq_zero.1 h2 with h' | h'
    · exact absurd h' ha2.ne'
    · exact mul_self_eq_zero.1 h'

/-- Wetting and drying with a parameter that is nowhere zero. -/
structure Wet (T : Term m) : Prop where
  on : T.depth.wetdry = true
  alpha : ∀ x : m.C, (T.depth.alpha (.cell x)).v ≠ 0

/-- Depth without the displacement. -/
def raw (T : Term m) (e : Sc m) (x : m.C) : ℝ := (T.depth.bathymetry (.cell x)).v + (e (.cell x)).v

theorem depth_eq (T : Term m) (hT : Usual T) (hw : Wet T) (e : Sc m) (x : m.C) :
    depthAt T (.cell x) (e (.cell x)).v = (raw T e x + Real.sqrt (raw T e x * raw T e x +
      (T.depth.alpha (.cell x)).v * (T.depth.alpha (.cell x)).v)) / 2 := by
  simp only [depthAt, Depth.total, Depth.displacement, hT.nonlinear, hw.on, if_true, Jet.add_v, Jet.mul_v, Jet.sub_v,
    Jet.sqrt, Jet.const_v, raw]
  ring

theorem mass_eq (T : Term m) (hw : Wet T) (e phi : Sc m) :
    massEta T e phi = m.dx fun x => ((raw T e x + Real.sqrt (raw T e x * raw T e x +
      (T.depth.alpha (.cell x)).v * (T.depth.alpha (.cell x)).v)) / 2 - (T.depth.bathymetry (.cell x)).v) *
        (phi (.cell x)).v := by
  unfold massEta
  simp only [neg_neg]
  rw [← dx_add]
  refine dx_congr fun x => ?_
  simp only [Depth.displacement, hw.on, if_true, Jet.add_v, Jet.mul_v, Jet.sub_v, Jet.sqrt, Jet.const_v, raw]
  ring

/-- The derivative of the mass term that a linear solve uses. -/
theorem mass_deriv (T : Term m) (hw : Wet T) (x d : State m) (phi : Sc m) :
    HasDerivAt (fun t => massEta T (line x d t).2 phi)
      (m.dx fun c => slope (raw T x.2 c) (T.depth.alpha (.cell c)).v * (d.2 (.cell c)).v * (phi (.cell c)).v) 0 := by
  have e : (fun t => massEta T (line x d t).2 phi) = fun t => ∑ c, m.wC c * (((raw T x.2 c + t * (d.2 (.cell c)).v +
      Real.sqrt ((raw T x.2 c + t * (d.2 (.cell c)).v) * (raw T x.2 c + t * (d.2 (.cell c)).v) +
      (T.depth.alpha (.cell c)).v * (T.depth.alpha (.cell c)).v)) / 2 - (T.depth.bathymetry (.cell c)).v) *
        (phi (.cell c)).v) := by
    funext t
    rw [mass_eq T hw]
    unfold Mesh.dx
    refine Finset.sum_congr rfl fun c _ => ?_
    have : raw T (line x d t).2 c = raw T x.2 c + t * (d.2 (.cell c)).v := by
      simp only [raw, line, Jet.add_v, Jet.mul_v, Jet.const_v]; ring
    beta_reduce
    rw [this]
  rw [e]
  unfold Mesh.dx
  refine HasDerivAt.fun_sum fun c _ => ?_
  beta_reduce
  set h := raw T x.2 c
  set dd := (d.2 (.cell c)).v
  set a := (T.depth.alpha (.cell c)).v with hav
  have ha : 0 < a * a := mul_self_pos.2 (hw.alpha c)
  have h1 : HasDerivAt (fun t : ℝ => h + t * dd) dd 0 := by
    simpa using ((hasDerivAt_id (0 : ℝ)).mul_const dd).const_add h
  have h2 : HasDerivAt (fun t : ℝ => (h + t * dd) * (h + t * dd) + a * a) (2 * h * dd) 0 := by
    refine ((h1.fun_mul h1).add_const (a * a)).congr_deriv ?_
    simp; ring
  have hne : (h + (0 : ℝ) * dd) * (h + 0 * dd) + a * a ≠ 0 := by
    have := mul_self_nonneg (h + (0 : ℝ) * dd)
    linarith
  have h3 := h2.sqrt hne
  have h4 := ((((h1.fun_add h3).div_const 2).sub_const (T.depth.bathymetry (.cell c)).v).mul_const
    (phi (.cell c)).v).const_mul (m.wC c)
  refine h4.congr_deriv ?_
  unfold slope
  rw [zero_mul, add_zero]
  have hr : Real.sqrt (h * h + a * a) ≠ 0 := (Real.sqrt_pos.2 (by nlinarith [mul_self_nonneg h])).ne'
  field_simp

/-- Volume after a change along which the linearised mass is kept: it never falls, and it rises if anything changes. -/
theorem volume_grows (T : Term m) (hT : Usual T) (hw : Wet T) (x d : State m) :
    (m.dx fun c => slope (raw T x.2 c) (T.depth.alpha (.cell c)).v * (d.2 (.cell c)).v) + volume T x.2 ≤
      volume T (line x d 1).2 ∧
    ((m.dx fun c => slope (raw T x.2 c) (T.depth.alpha (.cell c)).v * (d.2 (.cell c)).v) + volume T x.2 =
      volume T (line x d 1).2 → ∀ c, 0 < m.wC c → ((line x d 1).2 (.cell c)).v = (x.2 (.cell c)).v) := by
  have hraw : ∀ c, raw T (line x d 1).2 c = raw T x.2 c + (d.2 (.cell c)).v := by
    intro c
    simp only [raw, line, Jet.add_v, Jet.mul_v, Jet.const_v]; ring
  have hd : ∀ c, depthAt T (.cell c) ((line x d 1).2 (.cell c)).v -
      (slope (raw T x.2 c) (T.depth.alpha (.cell c)).v * (d.2 (.cell c)).v + depthAt T (.cell c) (x.2 (.cell c)).v) ≥ 0 ∧
      (depthAt T (.cell c) ((line x d 1).2 (.cell c)).v -
      (slope (raw T x.2 c) (T.depth.alpha (.cell c)).v * (d.2 (.cell c)).v + depthAt T (.cell c) (x.2 (.cell c)).v) = 0 →
        (d.2 (.cell c)).v = 0) := by
    intro c
    rw [depth_eq T hT hw, depth_eq T hT hw, hraw]
    obtain ⟨h1, h2⟩ := tangent (raw T x.2 c) (d.2 (.cell c)).v (T.depth.alpha (.cell c)).v (hw.alpha c)
    constructor
    · linarith
    · intro h; exact h2 (by linarith)
  have hsum : volume T (line x d 1).2 - ((m.dx fun c => slope (raw T x.2 c) (T.depth.alpha (.cell c)).v * (d.2 (.cell c)).v) +
      volume T x.2) = m.dx fun c => depthAt T (.cell c) ((line x d 1).2 (.cell c)).v -
      (slope (raw T x.2 c) (T.depth.alpha (.cell c)).v * (d.2 (.cell c)).v + depthAt T (.cell c) (x.2 (.cell c)).v) := by
    unfold volume
    rw [← dx_add, ← dx_sub]
  constructor
  · have := dx_nonneg (m := m) fun c => (hd c).1
    linarith
  · intro h c hc
    rw [h, sub_self] at hsum
    have h0 := (Finset.sum_eq_zero_iff_of_nonneg (fun c _ => mul_nonneg (m.wC_nonneg c) (hd c).1)).1 hsum.symm c
      (Finset.mem_univ c)
    have := (hd c).2 ((mul_eq_zero.1 h0).resolve_left hc.ne')
    simp only [line, Jet.add_v, Jet.mul_v, Jet.const_v, this]
    ring

/-- C126 (violated): with one linear solve, which `use_semi_implicit_linearization` chooses, the mass term is replaced by its
tangent. In a closed basin with wetting and drying no step loses water, and every step that changes the elevation creates
water. -/
theorem C126_semi_violated (S : Setup m) (theta : ℝ) (user : Option Snes) (H : Set (Sc m)) (old new : State m)
    (hT : Usual S.T) (hw : Wet S.T) (hc : Closed S) (h1 : cst m 1 ∈ H) (hs : snesType S.semi user = .ksponly)
    (h : CnStep S theta user H old new) :
    volume S.T old.2 ≤ volume S.T new.2 ∧
      (volume S.T new.2 = volume S.T old.2 →
        ∀ c, 0 < m.wC c → (new.2 (.cell c)).v = (old.2 (.cell c)).v) := by
  unfold CnStep at h
  rw [hs] at h
  obtain ⟨d, rfl, h⟩ := h
  have h := h _ h1
  have e : (fun t => cnForm S theta old (line old d t) (cst m 1)) =
      fun t => massEta S.T (line old d t).2 (cst m 1) - massEta S.T old.2 (cst m 1) := by
    funext t
    unfold cnForm
    rw [res_one _ _ _ hT, continuity_one _ _ _ _ _ hT, inflow_closed _ _ _ _ _ hT hc.bnd hc.source,
      inflow_closed _ _ _ _ _ hT hc.bnd hc.sourceOld]
    ring
  have e0 : cnForm S theta old old (cst m 1) = 0 := by
    unfold cnForm
    rw [res_one _ _ _ hT, continuity_one _ _ _ _ _ hT, inflow_closed _ _ _ _ _ hT hc.bnd hc.source,
      inflow_closed _ _ _ _ _ hT hc.bnd hc.sourceOld]
    ring
  rw [e, e0, ((mass_deriv S.T hw old d (cst m 1)).sub_const _).deriv, zero_add] at h
  simp only [cst_apply, Jet.const_v, mul_one] at h
  obtain ⟨g1, g2⟩ := volume_grows S.T hT hw old d
  rw [h, zero_add] at g1 g2
  exact ⟨g1, fun hv => g2 hv.symm⟩

end Verif.WetDry
