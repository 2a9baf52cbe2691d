import Verif.Surface.Model
import Verif.Solve.Props4

/-!
C146: parts of the shallow water equations and the free surface of the non-hydrostatic model.
-/

namespace Verif.Surface

open Finset Verif.Dg Verif.Contract Verif.Solve

variable {m : Mesh 2} (T : Swe.Term m) (K : Swe.Coeffs m) (bc : ℕ → Option (Swe.Funcs m))

/-! ### The parts -/

/-- C146: mass term and residual of the shallow water equations are those of the momentum equation and of the free surface equation
together, each given the other unknown as a field. -/
theorem C146_split (x v w : State m) :
    (swe T K bc).mass x w = (mom T K bc x.2 v.2).mass x.1 w.1 + (fs T K bc x.1 v.1).mass x.2 w.2 ∧
    (swe T K bc).res x v w = (mom T K bc x.2 v.2).res x.1 v.1 w.1 + (fs T K bc x.1 v.1).res x.2 v.2 w.2 := ⟨rfl, rfl⟩

/-- C146: tested with a velocity alone or an elevation alone, the shallow water equations are the parts. -/
theorem C146_parts (x v : State m) (w : Vc m) (phi : Sc m) :
    (swe T K bc).res x v (w, 0) = (mom T K bc x.2 v.2).res x.1 v.1 w ∧
    (swe T K bc).res x v (0, phi) = (fs T K bc x.1 v.1).res x.2 v.2 phi := by
  constructor
  · rw [(C146_split T K bc x v (w, 0)).2]
    exact add_eq_left.2 (continuity_test T K bc x v).map_zero
  · rw [(C146_split T K bc x v (0, phi)).2]
    exact add_eq_right.2 (momentum_test T K bc x v).map_zero

theorem mass_elev (x : State m) (phi : Sc m) : (swe T K bc).mass x (0, phi) = Swe.massEta T x.2 phi := by
  have h : ∀ i, ip (x.1 i) ((0 : Vc m) i) = 0 := fun i => (ip_right (x.1 i)).map_zero
  simp only [swe, h, sum_const_zero, zero_add]

/-! ### Volume -/

/-- Volume that enters in unit time: through the boundary and from the source. -/
noncomputable def inflow (K : Swe.Coeffs m) (u : Vc m) (eta : Sc m) (uOld : Vc m) (etaOld : Sc m) : ℝ :=
  -(∑ b, m.wB b * Swe.volFlux T bc u eta uOld etaOld (m.marker b) b) + (K.volume.map fun s => m.dx fun x => (s (.cell x)).v).getD 0

/-- C146: balance of the volume over a step of the non-hydrostatic model, whatever the step of the shallow water equations and the Poisson
solver do: the change is the flow of the corrected velocity. -/
theorem C146_volume (hu : T.uDg = true) (hflat : m.Flat) {S : State m → State m → Prop} {P : State m → Vc m → Prop} {Kold : Swe.Coeffs m}
    {dt theta : ℝ} {semi : Bool} {He : Submodule ℝ (Sc m)} (h1 : cst m 1 ∈ He) {old new : State m}
    (h : NhStep S P T K Kold bc dt theta semi He old new) :
    Swe.massEta T new.2 (cst m 1) - Swe.massEta T old.2 (cst m 1) =
      dt * (theta * inflow T bc K new.1 new.2 new.1 (if semi then old.2 else new.2) +
        (1 - theta) * inflow T bc Kold old.1 old.2 old.1 old.2) := by
  obtain ⟨mid, -, -, -, h⟩ := h
  have := h _ h1
  simp only [fs, Swe.C76_total _ _ _ _ _ _ _ hu hflat] at this
  simp only [inflow]
  linarith

/-- C146: in a closed basin without a source the volume of water, with the displacement of the bed by wetting and drying, does not change.
With wetting and drying this is about steps whose solver finds a zero, that is without `use_semi_implicit_linearization`. -/
theorem C146_conserved (hu : T.uDg = true) (hflat : m.Flat) (hb : ∀ k ∈ m.markers, Swe.IsClosed (bc k)) {S : State m → State m → Prop}
    {P : State m → Vc m → Prop} {Kold : Swe.Coeffs m} (hk : K.volume = none) (hk' : Kold.volume = none) {dt theta : ℝ} {semi : Bool}
    {He : Submodule ℝ (Sc m)} (h1 : cst m 1 ∈ He) {old new : State m} (h : NhStep S P T K Kold bc dt theta semi He old new) :
    Swe.massEta T new.2 (cst m 1) = Swe.massEta T old.2 (cst m 1) := by
  obtain ⟨mid, -, -, -, h⟩ := h
  have := h _ h1
  simp only [fs, Swe.C76_conserved _ _ _ _ _ _ _ hu hflat hb hk, Swe.C76_conserved _ _ _ _ _ _ _ hu hflat hb hk'] at this
  linarith

/-- C146: the same with an integrator with stages, whatever velocities the stages are given. -/
theorem C146_stages (hu : T.uDg = true) (hflat : m.Flat) (hb : ∀ k ∈ m.markers, Swe.IsClosed (bc k)) {K : ℕ → Swe.Coeffs m}
    (hk : ∀ i, (K i).volume = none) {R : RK.Tableau} (hn : 0 < R.n) (ha : ∀ i < R.n - 1, R.a i i ≠ 0) {dt : ℝ} (hdt : dt ≠ 0) {semi : Bool}
    {He : Submodule ℝ (Sc m)} (h1 : cst m 1 ∈ He) {old new : State m} (h : NhStages T K bc R dt semi He old new) :
    Swe.massEta T new.2 (cst m 1) = Swe.massEta T old.2 (cst m 1) := by
  obtain ⟨u, -, e, k, hs, ht, hnew⟩ := h
  rw [hnew]
  have hm : ∀ i < R.n, (∀ j < i, ip (k j) (cst m 1) = 0) → Swe.massEta T (e i) (cst m 1) = Swe.massEta T old.2 (cst m 1) := by
    intro i hi hj
    have := (hs i hi).2 _ h1
    simp only [fs, Swe.C76_conserved _ _ _ _ _ _ _ hu hflat hb (hk i)] at this
    rw [sum_eq_zero fun j hj' => by rw [hj j (mem_range.1 hj'), mul_zero]] at this
    linarith
  have hk0 : ∀ i < R.n - 1, ip (k i) (cst m 1) = 0 := by
    intro i
    induction i using Nat.strong_induction_on with
    | _ i ih =>
      intro hi
      have hj : ∀ j < i, ip (k j) (cst m 1) = 0 := fun j hj => ih j hj (hj.trans hi)
      have h2 := hm i (by omega) hj
      have := (ht i hi).2 _ h1
      simp only [fs] at this
      rw [sum_eq_zero fun j hj' => by rw [hj j (mem_range.1 hj'), mul_zero], h2, sub_self, sub_zero, add_zero] at this
      exact (mul_eq_zero.1 this).resolve_left (mul_ne_zero hdt (ha i hi))
  exact hm _ (by omega) fun j hj => hk0 j hj

/-- C146: a closed basin keeps its volume over a run with steps of any length. -/
theorem C146_run (hu : T.uDg = true) (hflat : m.Flat) (hb : ∀ k ∈ m.markers, Swe.IsClosed (bc k)) {K : ℕ → Swe.Coeffs m}
    (hk : ∀ i, (K i).volume = none) {S : ℕ → State m → State m → Prop} {P : ℕ → State m → Vc m → Prop} {dt : ℕ → ℝ} {theta : ℝ} {semi : Bool}
    {He : Submodule ℝ (Sc m)} (h1 : cst m 1 ∈ He) {x : ℕ → State m}
    (h : ∀ n, NhStep (S n) (P n) T (K (n + 1)) (K n) bc (dt n) theta semi He (x n) (x (n + 1))) (n : ℕ) :
    Swe.massEta T (x n).2 (cst m 1) = Swe.massEta T (x 0).2 (cst m 1) := by
  induction n with
  | zero => rfl
  | succ n ih => rw [C146_conserved T _ bc hu hflat hb (hk _) (hk _) h1 (h n), ih]

/-! ### Without correction -/

/-- Where the velocity around which the free surface equation is linearised makes no difference: no linearisation, closed boundaries,
depth without elevation, or a continuous velocity, whose equation is not integrated by parts. -/
def Same (semi : Bool) : Prop :=
  semi = false ∨ (∀ k ∈ m.markers, Swe.IsClosed (bc k)) ∨ T.depth.nonlinear = false ∨ T.uDg = false

theorem depthAt_linear (h : T.depth.nonlinear = false) (p : Pt m) (a b : ℝ) : Swe.depthAt T p a = Swe.depthAt T p b := by
  simp [Swe.depthAt, Depth.total, h]

theorem continuity_uOld {semi : Bool} (h : Same T bc semi) (hs : semi = true) (u : Vc m) (eta : Sc m) (a b : Vc m) (etaOld phi : Sc m) :
    Swe.continuity T K bc u eta a etaOld phi = Swe.continuity T K bc u eta b etaOld phi := by
  rcases h with h | h | h | h
  · exact absurd hs (by simp [h])
  · have key : ∀ (c : Vc m) (p : m.B), Swe.volFlux T bc u eta c etaOld (m.marker p) p = 0 := fun c p =>
      Swe.C76_closed T bc u eta c etaOld _ p (h _ (m.marker_mem p))
    simp only [Swe.continuity, Swe.huDiv, bndLoop_eq, key]
  · have key : ∀ (k : ℕ) (p : m.B), Swe.volFlux T bc u eta a etaOld k p = Swe.volFlux T bc u eta b etaOld k p := fun k p => by
      unfold Swe.volFlux
      cases ho : Swe.openFuncs (bc k) with
      | none => rfl
      | some f =>
        simp only [Swe.fluxOpen]
        rw [depthAt_linear T h _ (Swe.bndF T f k p (etaOld (.bnd p)).v (Swe.atB a p)).1 (Swe.bndF T f k p (etaOld (.bnd p)).v (Swe.atB b p)).1]
        congr 1
        exact depthAt_linear T h _ _ _
    simp only [Swe.continuity, Swe.huDiv, bndLoop_eq, key]
  · simp only [Swe.continuity, Swe.huDiv, h, Bool.false_eq_true, if_false]

/-- C146: the elevation that a step of the shallow water equations finds solves the free surface equation with the velocity of that
step. -/
theorem C146_same {Kold : Swe.Coeffs m} {dt theta : ℝ} {semi : Bool} (hs : Same T bc semi) {Hu : Submodule ℝ (Vc m)} {He : Submodule ℝ (Sc m)}
    {old new : State m} (h : ThetaStep (swe T K bc) (swe T Kold bc) dt theta semi (Hu.prod He) old new) :
    FsStep T K Kold bc dt theta semi He old new.1 new.2 := by
  refine ⟨h.1.2, fun phi hp => ?_⟩
  have := h.2 (0, phi) ⟨Hu.zero_mem, hp⟩
  rw [mass_elev, mass_elev, (C146_parts T K bc _ _ 0 phi).2, (C146_parts T Kold bc _ _ 0 phi).2] at this
  rw [← this]
  cases hc : semi with
  | false => simp only [Bool.false_eq_true, if_false, fs]
  | true =>
    have e := continuity_uOld T K bc hs hc new.1 new.2 old.1 new.1 old.2 phi
    simp only [if_true, fs, e]

theorem weak_fs (hw : T.depth.wetdry = false) (u uOld : Vc m) : Weak (fs T K bc u uOld) := by
  have hm : (fs T K bc u uOld).mass = ip := funext fun a => funext fun b => massEta_dry T hw a b
  exact ⟨hm ▸ bilin_ip, bilin_ip, fun eta v => continuity_test T K bc (u, eta) (uOld, v)⟩

theorem affine_fs (hb : ∀ k f, bc k = some f → Plain T f) (u uOld : Vc m) (v : Sc m) : Affine (fs T K bc u uOld) v := fun phi => by
  have h := continuity_aff T K bc hb (uOld, v) phi
  have e : ∀ eta : Sc m, (fs T K bc u uOld).res eta v phi - (fs T K bc u uOld).res 0 v phi =
      Swe.continuity T K bc (0 : Vc m) eta uOld v phi - Swe.continuity T K bc (0 : Vc m) (0 : Sc m) uOld v phi := fun eta => by
    have h1 := h.1 (u, 0) (0, eta)
    simp only [Prod.mk_add_mk, add_zero, zero_add, Prod.fst_zero, Prod.snd_zero] at h1
    simp only [fs]
    linarith
  have h2 := comp h (LinearMap.inr ℝ (Vc m) (Sc m))
  simp only [e]
  exact h2

theorem totalH_linear (h : T.depth.nonlinear = false) (a b : Sc m) : Swe.totalH T a = Swe.totalH T b := by
  funext x
  simp [Swe.totalH, Depth.total, h]

theorem fixed_fs {semi : Bool} (hf : semi = true ∨ T.depth.nonlinear = false) (u uOld : Vc m) : Fixed (fs T K bc u uOld) semi := by
  refine hf.imp id fun h eta v v' phi => ?_
  have key : ∀ (k : ℕ) (p : m.B), Swe.volFlux T bc u eta uOld v k p = Swe.volFlux T bc u eta uOld v' k p := fun k p => by
    unfold Swe.volFlux
    cases ho : Swe.openFuncs (bc k) with
    | none => rfl
    | some f =>
      simp only [Swe.fluxOpen]
      rw [depthAt_linear T h _ (Swe.bndF T f k p (v (.bnd p)).v (Swe.atB uOld p)).1 (Swe.bndF T f k p (v' (.bnd p)).v (Swe.atB uOld p)).1,
        totalH_linear T h v v']
      congr 1
      exact depthAt_linear T h _ _ _
  simp only [fs, Swe.continuity, Swe.huDiv, bndLoop_eq, key, totalH_linear T h v v']

/-- C146: the free surface step has one result, but for finitely many time steps. -/
theorem C146_unique {semi : Bool} (hf : semi = true ∨ T.depth.nonlinear = false) (hw : T.depth.wetdry = false)
    (hb : ∀ k f, bc k = some f → Plain T f) {He : Submodule ℝ (Sc m)} [FiniteDimensional ℝ He] (hp : ∀ x, 0 < m.wC x)
    (hdef : ∀ c ∈ He, (∀ x, (c (.cell x)).v = 0) → c = 0) (Kold : Swe.Coeffs m) (theta : ℝ) (old : State m) (u : Vc m) :
    {dt : ℝ | ¬ ∃! eta, FsStep T K Kold bc dt theta semi He old u eta}.Finite := by
  have hm : (fs T K bc u u).mass = ip := funext fun a => funext fun b => massEta_dry T hw a b
  refine C145_theta_finite (weak_fs T K bc hw u u) (weak_fs T Kold bc hw _ _) theta semi _ (affine_fs T K bc hb u u _) (fixed_fs T K bc hf u u)
    (hm ▸ regular_ip hp hdef)

theorem sqrt_nonneg_mul (a g : ℝ) (hg : 0 ≤ g) : 0 ≤ a * Real.sqrt (g / a) := by
  rcases le_total 0 a with h | h
  · exact mul_nonneg h (Real.sqrt_nonneg _)
  · rw [Real.sqrt_eq_zero_of_nonpos (div_nonpos_of_nonneg_of_nonpos hg h), mul_zero]

theorem passive_fs (hg : 0 ≤ T.g) (hb : ∀ k ∈ m.markers, Swe.IsClosed (bc k)) (u uOld : Vc m) (v x : Sc m) :
    (fs T K bc u uOld).res x v x - (fs T K bc u uOld).res 0 v x ≤ 0 := by
  have key : ∀ (e : Sc m) (p : m.B), Swe.volFlux T bc u e uOld v (m.marker p) p = 0 := fun e p =>
    Swe.C76_closed T bc u e uOld v _ p (hb _ (m.marker_mem p))
  have hz : ∀ s i, jumpN (0 : Sc m) s i = 0 := fun s i => by simp [jumpN]
  simp only [fs, Swe.continuity, Swe.huDiv, bndLoop_eq, key, hz]
  cases T.uDg <;> cases T.etaDg <;> simp only [if_true, if_false, Bool.false_eq_true, add_sub_add_right_eq_sub, sub_self, le_refl]
  have : 0 ≤ m.dS fun s => avg (Swe.totalH T v) s * Real.sqrt (T.g / avg (Swe.totalH T v) s) * ∑ i, jumpN x s i * jumpN x s i :=
    dS_nonneg fun s => mul_nonneg (sqrt_nonneg_mul _ _ hg) (sum_nonneg fun i _ => mul_self_nonneg _)
  have e : (m.dS fun s => ∑ i, jumpN x s i * (avg (Swe.totalH T v) s * (avg (u i) s + Real.sqrt (T.g / avg (Swe.totalH T v) s) * jumpN x s i))) =
      (m.dS fun s => ∑ i, jumpN x s i * (avg (Swe.totalH T v) s * (avg (u i) s + Real.sqrt (T.g / avg (Swe.totalH T v) s) * 0))) +
      m.dS fun s => avg (Swe.totalH T v) s * Real.sqrt (T.g / avg (Swe.totalH T v) s) * ∑ i, jumpN x s i * jumpN x s i := by
    rw [← dS_add]
    refine dS_congr fun s => ?_
    rw [mul_sum, ← sum_add_distrib]
    exact sum_congr rfl fun i _ => by ring
  rw [e]
  linarith

/-- C146: in a closed basin the free surface step has one result for every time step. -/
theorem C146_unique_closed {semi : Bool} (hf : semi = true ∨ T.depth.nonlinear = false) (hw : T.depth.wetdry = false) (hg : 0 ≤ T.g)
    (hc : ∀ k, Swe.IsClosed (bc k)) {He : Submodule ℝ (Sc m)} [FiniteDimensional ℝ He] (hp : ∀ x, 0 < m.wC x)
    (hdef : ∀ c ∈ He, (∀ x, (c (.cell x)).v = 0) → c = 0) (Kold : Swe.Coeffs m) {dt theta : ℝ} (hdt : 0 ≤ dt) (ht : 0 ≤ theta) (old : State m)
    (u : Vc m) : ∃! eta, FsStep T K Kold bc dt theta semi He old u eta := by
  have hm : (fs T K bc u u).mass = ip := funext fun a => funext fun b => massEta_dry T hw a b
  have hb : ∀ k f, bc k = some f → Plain T f := fun k f h => by
    refine Or.inr (Or.inr (Or.inr (Or.inl ?_)))
    refine List.findSome?_eq_none_iff.2 fun e he => ?_
    obtain ⟨d, rfl⟩ := hc k f h e he
    rfl
  refine C145_theta (weak_fs T K bc hw u u) (weak_fs T Kold bc hw _ _) dt theta semi _ (affine_fs T K bc hb u u _) (fixed_fs T K bc hf u u) ?_
  rw [hm]
  exact C145_passive id old.2 (mul_nonneg hdt ht) (fun x hx => hx) (fun x _ => ip_nonneg x) (fun x hx h0 => hdef x hx (ip_zero hp h0))
    fun x _ => passive_fs T K bc hg (fun k _ => hc k) u u old.2 x

/-- C146: if the Poisson solver leaves the velocity as it is, the step of the non-hydrostatic model is that of the shallow water equations.
Missing: linearised equations with open boundaries, for which this is wrong (`C146_open_violated`), and wetting and drying and nonlinear
equations without linearisation, for which the free surface step may have several results. -/
theorem C146_hydrostatic_partial {Kold : Swe.Coeffs m} {dt theta : ℝ} {semi : Bool} (hs : Same T bc semi) {Hu : Submodule ℝ (Vc m)}
    {He : Submodule ℝ (Sc m)} {old : State m} (hu : ∀ u, ∃! eta, FsStep T K Kold bc dt theta semi He old u eta) (new : State m) :
    NhStep (ThetaStep (swe T K bc) (swe T Kold bc) dt theta semi (Hu.prod He)) (fun mid u => u = mid.1) T K Kold bc dt theta semi He old new ↔
      ThetaStep (swe T K bc) (swe T Kold bc) dt theta semi (Hu.prod He) old new := by
  constructor
  · rintro ⟨mid, h, e, hf⟩
    have h2 := C146_same T K bc hs h
    rw [← e] at h2
    rwa [show new = mid from Prod.ext e ((hu new.1).unique hf h2)]
  · exact fun h => ⟨new, h, rfl, C146_same T K bc hs h⟩

end Verif.Surface
