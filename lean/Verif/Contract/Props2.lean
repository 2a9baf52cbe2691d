import Verif.Contract.Props
import Verif.Swe.Props5

/-!
C127: waves, friction and viscosity in a closed basin, stepped implicitly.
-/

namespace Verif.Contract

open Finset Verif.Dg Verif.Swe

variable {m : Mesh 2}

/-! ### Linearity of the forms -/

namespace IsLin

theorem vel_v (i : Fin 2) (p : Pt m) : IsLin fun x : State m => (x.1 i p).v := ⟨fun _ _ => rfl, fun _ _ => rfl⟩
theorem vel_g (i j : Fin 2) (p : Pt m) : IsLin fun x : State m => (x.1 i p).g j := ⟨fun _ _ => rfl, fun _ _ => rfl⟩
theorem elev_v (p : Pt m) : IsLin fun x : State m => (x.2 p).v := ⟨fun _ _ => rfl, fun _ _ => rfl⟩
theorem elev_g (j : Fin 2) (p : Pt m) : IsLin fun x : State m => (x.2 p).g j := ⟨fun _ _ => rfl, fun _ _ => rfl⟩
theorem vc_v (i : Fin 2) (p : Pt m) : IsLin fun x : Vc m => (x i p).v := ⟨fun _ _ => rfl, fun _ _ => rfl⟩
theorem vc_g (i j : Fin 2) (p : Pt m) : IsLin fun x : Vc m => (x i p).g j := ⟨fun _ _ => rfl, fun _ _ => rfl⟩
theorem sc_v {d : ℕ} {m : Mesh d} (p : Pt m) : IsLin fun x : Sc m => (x p).v := ⟨fun _ _ => rfl, fun _ _ => rfl⟩
theorem sc_g {d : ℕ} {m : Mesh d} (j : Fin d) (p : Pt m) : IsLin fun x : Sc m => (x p).g j := ⟨fun _ _ => rfl, fun _ _ => rfl⟩

end IsLin

/-- Shows that an expression is linear by its structure. -/
macro "lin" : tactic => `(tactic| repeat' first
  | exact IsLin.zero
  | exact IsLin.vel_v _ _ | exact IsLin.vel_g _ _ _ | exact IsLin.elev_v _ | exact IsLin.elev_g _ _
  | exact IsLin.vc_v _ _ | exact IsLin.vc_g _ _ _ | exact IsLin.sc_v _ | exact IsLin.sc_g _ _
  | (apply IsLin.neg) | (apply IsLin.add) | (apply IsLin.sub)
  | (apply IsLin.dx; intro _) | (apply IsLin.dS; intro _) | (apply IsLin.dB; intro _)
  | (apply IsLin.left) | (apply IsLin.right) | (apply IsLin.quot) | (apply IsLin.ite) | (apply IsLin.sum; intro _))

section

variable (T : Swe.Term m) (K : Coeffs m) (bc : ℕ → Option (Funcs m)) (hb : ∀ k ∈ m.markers, IsClosed (bc k))

include hb

theorem closed_at (b : m.B) : openFuncs (bc (m.marker b)) = none := openFuncs_closed (hb _ (m.marker_mem b))

theorem pressure_left (e : Sc m) (w : Vc m) : IsLin fun x : State m => pressure T bc x.1 x.2 e w := by
  have hop := closed_at bc hb
  unfold pressure
  cases T.etaDg <;> simp only [if_true, if_false, Bool.false_eq_true, bndLoop_eq, headCorr, headBnd, hop, zero_mul, mul_zero, avg, jumpV, normalAt]
  all_goals lin

theorem pressure_right (x : State m) (e : Sc m) : IsLin fun w : Vc m => pressure T bc x.1 x.2 e w := by
  have hop := closed_at bc hb
  unfold pressure
  cases T.etaDg <;>
    simp only [if_true, if_false, Bool.false_eq_true, bndLoop_eq, headCorr, headBnd, hop, zero_mul, mul_zero, avg, jumpV, normalAt, div]
  all_goals lin

theorem huDiv_left (hu : T.uDg = true) (v : State m) (p : Sc m) : IsLin fun x : State m => huDiv T bc x.1 x.2 v.1 v.2 p := by
  have hop := closed_at bc hb
  unfold huDiv
  rw [hu]
  cases T.etaDg <;> simp only [if_true, if_false, Bool.false_eq_true, bndLoop_eq, volFlux, hop, zero_mul, mul_zero, avg, jumpN]
  all_goals lin

theorem huDiv_right (hu : T.uDg = true) (x v : State m) : IsLin fun p : Sc m => huDiv T bc x.1 x.2 v.1 v.2 p := by
  have hop := closed_at bc hb
  unfold huDiv
  rw [hu]
  cases T.etaDg <;> simp only [if_true, if_false, Bool.false_eq_true, bndLoop_eq, volFlux, hop, zero_mul, mul_zero, avg, jumpN]
  all_goals lin

theorem delta_closed (uv : Vc m) (eta : Sc m) (b : m.B) : deltaUv T bc uv eta (m.marker b) b = none := by
  unfold deltaUv
  rw [closed_at bc hb b]

theorem viscosity_left (nu : Option (Sc m)) (e : Sc m) (w : Vc m) :
    IsLin fun x : State m => viscosity T bc nu x.1 x.2 e w := by
  have hd := delta_closed T bc hb
  unfold viscosity
  cases nu with
  | none => exact IsLin.zero
  | some nu =>
    cases hG : T.gradDiv <;>
      simp only [bndLoop_eq, viscBnd, hd, stress, tensorJump, Swe.symm, hG, if_true, if_false, Bool.false_eq_true] <;> lin

theorem viscosity_right (nu : Option (Sc m)) (x : State m) (e : Sc m) :
    IsLin fun w : Vc m => viscosity T bc nu x.1 x.2 e w := by
  have hd := delta_closed T bc hb
  unfold viscosity
  cases nu with
  | none => exact IsLin.zero
  | some nu =>
    cases hG : T.gradDiv <;>
      simp only [bndLoop_eq, viscBnd, hd, stress, tensorJump, Swe.symm, hG, if_true, if_false, Bool.false_eq_true] <;> lin

omit hb in
theorem coriolis_left (f : Option (Sc m)) (w : Vc m) : IsLin fun x : State m => coriolis f x.1 w := by
  unfold coriolis
  cases f <;> simp only <;> lin

omit hb in
theorem coriolis_right (f : Option (Sc m)) (u : Vc m) : IsLin fun w : Vc m => coriolis f u w := by
  unfold coriolis
  cases f <;> simp only <;> lin

omit hb in
theorem quadraticDrag_left (cd : Option (m.C → ℝ)) (v : State m) (w : Vc m) :
    IsLin fun x : State m => quadraticDrag T cd x.1 v.1 v.2 w := by
  unfold quadraticDrag
  cases cd <;> simp only <;> lin

omit hb in
theorem quadraticDrag_right (cd : Option (m.C → ℝ)) (u : Vc m) (v : State m) :
    IsLin fun w : Vc m => quadraticDrag T cd u v.1 v.2 w := by
  unfold quadraticDrag
  cases cd <;> simp only <;> lin

omit hb in
theorem linearDrag_left (c : Option (Sc m)) (w : Vc m) : IsLin fun x : State m => linearDrag c x.1 w := by
  unfold linearDrag
  cases c <;> simp only <;> lin

omit hb in
theorem linearDrag_right (c : Option (Sc m)) (u : Vc m) : IsLin fun w : Vc m => linearDrag c u w := by
  unfold linearDrag
  cases c <;> simp only <;> lin

omit hb in
theorem boundaryDrag_left (v w : Vc m) : IsLin fun x : State m => boundaryDrag bc x.1 v w := by
  unfold boundaryDrag
  rw [funext fun x => congrArg Neg.neg (bndLoop_eq m _)]
  refine (IsLin.dB fun b => ?_).neg
  unfold dragBnd
  cases (bc (m.marker b)).bind Funcs.drag <;> simp only [tangential, atB, normalAt] <;> lin

omit hb in
theorem boundaryDrag_right (u v : Vc m) : IsLin fun w : Vc m => boundaryDrag bc u v w := by
  unfold boundaryDrag
  rw [funext fun x => congrArg Neg.neg (bndLoop_eq m _)]
  refine (IsLin.dB fun b => ?_).neg
  unfold dragBnd
  cases (bc (m.marker b)).bind Funcs.drag <;> simp only <;> lin

omit hb in
theorem turbineDrag_left (farms : List (Farm m)) (v : State m) (w : Vc m) :
    IsLin fun x : State m => turbineDrag T farms x.1 v.1 v.2 w := by
  unfold turbineDrag
  refine IsLin.neg ?_
  induction farms with
  | nil => exact IsLin.zero
  | cons F l ih =>
    simp only [List.map_cons, List.sum_cons]
    exact IsLin.add (by lin) ih

omit hb in
theorem turbineDrag_right (farms : List (Farm m)) (u : Vc m) (v : State m) :
    IsLin fun w : Vc m => turbineDrag T farms u v.1 v.2 w := by
  unfold turbineDrag
  refine IsLin.neg ?_
  induction farms with
  | nil => exact IsLin.zero
  | cons F l ih =>
    simp only [List.map_cons, List.sum_cons]
    exact IsLin.add (by lin) ih

end

/-! ### The basin -/

/-- The weights of velocity and elevation in the energy: depth and gravity. -/
def weight (g H : ℝ) (x : State m) : State m := (H • x.1, g • x.2)

/-- The linear equations over water of the constant depth `H` in a closed basin without forcing: waves, Coriolis force, friction
by any of the drags, turbines, viscosity.  Velocity and elevation are in `Hu` and `He`.  Either both are discontinuous and the
quadrature rules integrate their products exactly, or the elevation is continuous; these conditions are those of C78, C79 and C82. -/
structure Basin (T : Swe.Term m) (K : Coeffs m) (bc : ℕ → Option (Funcs m)) (Hu : Submodule ℝ (Vc m)) (He : Submodule ℝ (Sc m))
    (H : ℝ) : Prop where
  linear : T.nonlinear = false ∧ T.depth.nonlinear = false ∧ T.depth.wetdry = false
  depth : ∀ x, T.depth.bathymetry x = Jet.const H
  g_pos : 0 < T.g
  depth_pos : 0 < H
  closed : ∀ k ∈ m.markers, IsClosed (bc k)
  flat : m.Flat
  unit : m.UnitNormals
  uDg : T.uDg = true
  exact : T.etaDg = true → ∀ u ∈ Hu, ∀ eta ∈ He, DivExact m fun i => eta * u i
  free : K.wind = none ∧ K.pressure = none ∧ K.source = none ∧ K.volume = none ∧ K.bottomDrag = none
  drag : ∀ cd, K.cd = some cd → ∀ x, 0 ≤ cd x
  lindrag : ∀ c, K.linear = some c → ∀ x, 0 ≤ (c x).v
  walldrag : ∀ k l cd, bc k = some l → l.drag = some cd → ∀ b, 0 ≤ cd b
  farms : ∀ F ∈ K.farms, (∀ u h, 0 ≤ F.ct u h) ∧ ∀ x, 0 ≤ F.density x
  visc : ∀ u ∈ Hu, ∀ eta etaOld, viscosity T bc K.nu u eta etaOld u ≤ 0

theorem ip_left {d : ℕ} {m : Mesh d} (b : Sc m) : IsLin fun a : Sc m => ip a b := by unfold ip; lin
theorem ip_right {d : ℕ} {m : Mesh d} (a : Sc m) : IsLin fun b : Sc m => ip a b := by unfold ip; lin
theorem ip_symm {d : ℕ} {m : Mesh d} (a b : Sc m) : ip a b = ip b a := by unfold ip; exact dx_congr fun x => mul_comm _ _
theorem ip_nonneg {d : ℕ} {m : Mesh d} (a : Sc m) : 0 ≤ ip a a := dx_nonneg fun _ => mul_self_nonneg _

/-- The energy of a state, `H ∫ |u|² + g ∫ eta²`. -/
noncomputable def waveEnergy (g H : ℝ) (x : State m) : ℝ :=
  H * (m.dx fun c => ∑ i, (x.1 i (.cell c)).v ^ 2) + g * m.dx fun c => (x.2 (.cell c)).v ^ 2

theorem ipState_weight (g H : ℝ) (x y : State m) :
    ipState x (weight g H y) = H * (∑ i, ip (x.1 i) (y.1 i)) + g * ip x.2 y.2 := by
  have h1 : ∀ i, ip (x.1 i) ((weight g H y).1 i) = H * ip (x.1 i) (y.1 i) := fun i => (ip_right (x.1 i)).2 H (y.1 i)
  have h2 : ip x.2 (weight g H y).2 = g * ip x.2 y.2 := (ip_right x.2).2 g y.2
  simp only [ipState, h1, h2, mul_sum]

theorem ipState_energy (g H : ℝ) (x : State m) : ipState x (weight g H x) = waveEnergy g H x := by
  rw [ipState_weight, waveEnergy]
  congr 1
  · congr 1
    simp only [ip, Fin.sum_univ_two, ← dx_add]
    exact dx_congr fun c => by ring
  · congr 1
    exact dx_congr fun c => by ring

theorem isEnergy_weight (g H : ℝ) (hg : 0 ≤ g) (hH : 0 ≤ H) : IsEnergy fun x y : State m => ipState x (weight g H y) := by
  refine ⟨⟨fun y => ?_, fun x => ?_⟩, fun x y => ?_, fun x => ?_⟩
  · simp only [ipState_weight, ip]; lin
  · simp only [ipState_weight, ip]; lin
  · simp only [ipState_weight, ip_symm y.2, ip_symm (y.1 _)]
  · rw [ipState_weight]
    exact add_nonneg (mul_nonneg hH (sum_nonneg fun i _ => ip_nonneg _)) (mul_nonneg hg (ip_nonneg _))

theorem swe_mass (T : Swe.Term m) (K : Coeffs m) (bc : ℕ → Option (Funcs m)) (hw : T.depth.wetdry = false) (x y : State m) :
    (swe T K bc).mass x y = ipState x y := by
  have : ∀ p e, T.depth.displacement p e = 0 := fun p e => by simp [Depth.displacement, hw]
  simp only [swe, ipState, massEta, this, Jet.zero_v, zero_mul]
  rw [dx_zero]
  simp only [ip]; ring

theorem weight_mem (Hu : Submodule ℝ (Vc m)) (He : Submodule ℝ (Sc m)) (g H : ℝ) (x : State m) (hx : x ∈ Hu.prod He) :
    weight g H x ∈ Hu.prod He :=
  ⟨Hu.smul_mem H hx.1, He.smul_mem g hx.2⟩

variable {T : Swe.Term m} {K : Coeffs m} {bc : ℕ → Option (Funcs m)} {Hu : Submodule ℝ (Vc m)} {He : Submodule ℝ (Sc m)} {H : ℝ}

theorem Basin.hasEnergy (B : Basin T K bc Hu He H) : HasEnergy (swe T K bc) (Hu.prod He) (weight T.g H) where
  maps := weight_mem Hu He T.g H
  energy := by
    have := isEnergy_weight (m := m) T.g H B.g_pos.le B.depth_pos.le
    simpa only [swe_mass T K bc B.linear.2.2] using this
  inner x y := (swe_mass T K bc B.linear.2.2 x _).symm

theorem Basin.momentum (B : Basin T K bc Hu He H) (x v : State m) (w : Vc m) :
    Swe.momentum T K bc x.1 x.2 v.1 v.2 w = pressure T bc x.1 x.2 v.2 w + viscosity T bc K.nu x.1 x.2 v.2 w +
      coriolis K.coriolis x.1 w + quadraticDrag T K.cd x.1 v.1 v.2 w + linearDrag K.linear x.1 w + boundaryDrag bc x.1 v.1 w +
      turbineDrag T K.farms x.1 v.1 v.2 w := by
  obtain ⟨h1, h2, h3, -, h5⟩ := B.free
  have ha : advection T bc x.1 x.2 v.1 v.2 w = 0 := by unfold advection; rw [B.linear.1]; rfl
  unfold Swe.momentum
  rw [ha, h1, h2, h3, h5]
  simp only [windStress, atmPressure, momentumSource, bottomDrag3d]
  ring

theorem Basin.linear' (B : Basin T K bc Hu He H) (v : State m) : Linear (swe T K bc) (weight T.g H) v := by
  have hv : K.volume = none := B.free.2.2.2.1
  have hc : ∀ (x : State m) p, continuity T K bc x.1 x.2 v.1 v.2 p = huDiv T bc x.1 x.2 v.1 v.2 p := fun x p => by
    unfold continuity; rw [hv]; exact add_zero _
  have hu : ∀ f : Vc m → ℝ, IsLin f → IsLin fun y : State m => f (weight T.g H y).1 := fun f hf =>
    ⟨fun x y => by
        have : (weight T.g H (x + y)).1 = (weight T.g H x).1 + (weight T.g H y).1 := smul_add _ _ _
        beta_reduce; rw [this, hf.1],
      fun a x => by
        have : (weight T.g H (a • x)).1 = a • (weight T.g H x).1 := smul_comm _ _ _
        beta_reduce; rw [this, hf.2]⟩
  have he : ∀ f : Sc m → ℝ, IsLin f → IsLin fun y : State m => f (weight T.g H y).2 := fun f hf =>
    ⟨fun x y => by
        have : (weight T.g H (x + y)).2 = (weight T.g H x).2 + (weight T.g H y).2 := smul_add _ _ _
        beta_reduce; rw [this, hf.1],
      fun a x => by
        have : (weight T.g H (a • x)).2 = a • (weight T.g H x).2 := smul_comm _ _ _
        beta_reduce; rw [this, hf.2]⟩
  refine ⟨fun y => ?_, fun x => ?_⟩
  · simp only [swe, B.momentum, hc]
    exact (((((((pressure_left T bc B.closed _ _).add (viscosity_left T bc B.closed _ _ _)).add (coriolis_left _ _)).add
      (quadraticDrag_left T _ v _)).add (linearDrag_left _ _)).add (boundaryDrag_left bc _ _)).add
      (turbineDrag_left T _ v _)).add (huDiv_left T bc B.closed B.uDg v _)
  · simp only [swe, B.momentum, hc]
    exact (hu _ (((((((pressure_right T bc B.closed x _).add (viscosity_right T bc B.closed _ x _)).add
      (coriolis_right _ _)).add (quadraticDrag_right T _ _ v)).add (linearDrag_right _ _)).add (boundaryDrag_right bc _ _)).add
      (turbineDrag_right T _ _ v))).add (he _ (huDiv_right T bc B.closed B.uDg x v))

theorem Basin.power (B : Basin T K bc Hu He H) (x v : State m) : (swe T K bc).res x v (weight T.g H x) =
    (H * pressure T bc x.1 x.2 v.2 x.1 + T.g * huDiv T bc x.1 x.2 v.1 v.2 x.2) +
      H * (viscosity T bc K.nu x.1 x.2 v.2 x.1 + (coriolis K.coriolis x.1 x.1 + quadraticDrag T K.cd x.1 v.1 v.2 x.1 +
        linearDrag K.linear x.1 x.1 + boundaryDrag bc x.1 v.1 x.1 + turbineDrag T K.farms x.1 v.1 v.2 x.1)) := by
  have hv : K.volume = none := B.free.2.2.2.1
  simp only [swe, continuity, hv, volumeSource, add_zero, B.momentum]
  have h1 : (weight T.g H x).1 = H • x.1 := rfl
  have h2 : (weight T.g H x).2 = T.g • x.2 := rfl
  rw [h1, h2, (pressure_right T bc B.closed x _).map_smul, (viscosity_right T bc B.closed _ x _).map_smul,
    (coriolis_right _ _).map_smul, (quadraticDrag_right T _ _ v).map_smul, (linearDrag_right _ _).map_smul,
    (boundaryDrag_right bc _ _).map_smul, (turbineDrag_right T _ _ v).map_smul, (huDiv_right T bc B.closed B.uDg x v).map_smul]
  ring

theorem Basin.wave_dgcg (B : Basin T K bc Hu He H) (he : T.etaDg = false) (x v : State m) :
    H * pressure T bc x.1 x.2 v.2 x.1 + T.g * huDiv T bc x.1 x.2 v.1 v.2 x.2 = 0 := by
  have h1 := C78_dgcg T bc x.1 x.2 v.1 v.2 B.uDg he B.closed
  have h2 : (fun i p => T.depth.total p (v.2 p) * x.1 i p) = H • x.1 := by
    funext i p
    have : T.depth.total p (v.2 p) = Jet.const H := by
      have := congrFun (totalH_linear T B.linear.2.1 v.2) p
      rw [B.depth] at this
      exact this
    rw [this]
    ext j
    · rfl
    · show (0 : ℝ) * _ + H * _ = H * _
      ring
  rw [h2, (pressure_right T bc B.closed x v.2).map_smul] at h1
  exact h1

theorem Basin.passive (B : Basin T K bc Hu He H) (v : State m) : Passive (swe T K bc) (Hu.prod He) (weight T.g H) v := by
  intro x hx
  have hH : ∀ c, 0 < depthAt T (.cell c) (v.2 (.cell c)).v := fun c => by
    rw [depthAt_linear T B.linear.2.1, B.depth]; exact B.depth_pos
  have hd := C79_dissipation T K bc x.1 v.1 v.2 B.unit hH B.drag B.lindrag B.walldrag B.farms
  have hw := B.visc x.1 hx.1 x.2 v.2
  have hwave : H * pressure T bc x.1 x.2 v.2 x.1 + T.g * huDiv T bc x.1 x.2 v.1 v.2 x.2 ≤ 0 := by
    cases he : T.etaDg with
    | true =>
      exact C78_bound T bc x.1 x.2 v.1 v.2 H B.linear.2.1 B.depth B.uDg he B.flat B.unit B.closed
        (B.exact he _ hx.1 _ hx.2) B.g_pos B.depth_pos
    | false => exact (B.wave_dgcg he x v).le
  rw [B.power]
  nlinarith [mul_nonneg B.depth_pos.le (neg_nonneg.2 hd), mul_nonneg B.depth_pos.le (neg_nonneg.2 hw)]

theorem Basin.energy (B : Basin T K bc Hu He H) (x : State m) :
    (swe T K bc).mass x (weight T.g H x) = waveEnergy T.g H x := by
  rw [swe_mass T K bc B.linear.2.2, ipState_energy]

/-! ### Steps -/

/-- Nothing in the equations depends on the solution: no quadratic drag, drag at walls or turbines. -/
structure NoDrag (K : Coeffs m) (bc : ℕ → Option (Funcs m)) : Prop where
  cd : K.cd = none
  farms : K.farms = []
  wall : ∀ k, (bc k).bind Funcs.drag = none

theorem NoDrag.boundary (N : NoDrag K bc) (u v w : Vc m) : boundaryDrag bc u v w = 0 := by
  unfold boundaryDrag
  rw [bndLoop_eq]
  simp only [dragBnd, N.wall, mul_zero, sum_const_zero, neg_zero]

theorem Basin.fixed (B : Basin T K bc Hu He H) (semi : Bool) (hN : semi = true ∨ NoDrag K bc) : Fixed (swe T K bc) semi := by
  refine hN.imp id fun N u v v' w => ?_
  have hop := closed_at bc B.closed
  have ht := totalH_linear T B.linear.2.1
  have h1 : ∀ e, pressure T bc u.1 u.2 e w.1 = pressure T bc u.1 u.2 v.2 w.1 := fun e => by
    simp only [pressure, ht, bndLoop_eq, headBnd, headCorr, hop]
  have h2 : ∀ e, viscosity T bc K.nu u.1 u.2 e w.1 = viscosity T bc K.nu u.1 u.2 v.2 w.1 := fun e => by
    simp only [viscosity, ht]
  have h3 : ∀ x : State m, huDiv T bc u.1 u.2 x.1 x.2 w.2 = huDiv T bc u.1 u.2 v.1 v.2 w.2 := fun x => by
    simp only [huDiv, ht, bndLoop_eq, volFlux, hop]
  simp only [swe, B.momentum, continuity, N.cd, N.farms, quadraticDrag, turbineDrag, List.map_nil, N.boundary, h1 v'.2, h2 v'.2, h3 v']

/-- C127: `CrankNicolson` with `implicitness_theta` of one half or more does not create wave energy, for any time step, if
nonlinear drag is linearised (`use_semi_implicit_linearization`) or there is none. -/
theorem C127_waves_theta (B : Basin T K bc Hu He H) (dt theta : ℝ) (semi : Bool) (old new : State m)
    (hN : semi = true ∨ NoDrag K bc) (ho : old ∈ Hu.prod He) (hdt : 0 ≤ dt) (ht : 1 / 2 ≤ theta)
    (h : ThetaStep (swe T K bc) (swe T K bc) dt theta semi (Hu.prod He) old new) :
    waveEnergy T.g H new ≤ waveEnergy T.g H old := by
  rw [← B.energy, ← B.energy]
  exact C127_theta _ _ _ dt theta semi old new B.hasEnergy (B.linear' old) (B.fixed semi hN) (B.passive old) ho hdt ht h

/-- C127: over any number of steps of any lengths, with coefficients that change from step to step. -/
theorem C127_waves_run (K : ℕ → Coeffs m) (dt theta : ℕ → ℝ) (u : ℕ → State m)
    (B : ∀ n, Basin T (K n) bc Hu He H) (h0 : u 0 ∈ Hu.prod He) (hdt : ∀ n, 0 ≤ dt n) (ht : ∀ n, 1 / 2 ≤ theta n)
    (h : ∀ n, ThetaStep (swe T (K n) bc) (swe T (K n) bc) (dt n) (theta n) true (Hu.prod He) (u n) (u (n + 1))) (n : ℕ) :
    waveEnergy T.g H (u n) ≤ waveEnergy T.g H (u 0) :=
  C127_run _ u (fun i => C127_waves_theta (B i) (dt i) (theta i) true _ _ (Or.inl rfl)
    (i.casesOn h0 fun j => (h j).1) (hdt i) (ht i) (h i)) n

/-- C127: `DIRK22` of the two-dimensional solver does not create wave energy, for any time step. -/
theorem C127_waves_dirk22 (B : Basin T K bc Hu He H) (dt : ℝ) (semi : Bool) (old new : State m)
    (hN : semi = true ∨ NoDrag K bc) (ho : old ∈ Hu.prod He) (hdt : 0 ≤ dt)
    (h : UStep (fun _ => swe T K bc) RK.dirk22 dt semi (Hu.prod He) old new) :
    waveEnergy T.g H new ≤ waveEnergy T.g H old := by
  rw [← B.energy, ← B.energy]
  exact C127_dirk22_uform _ _ _ dt semi old new B.hasEnergy (B.linear' old) (B.fixed semi hN) (B.passive old) ho hdt h

/-- C127: nor does `BackwardEuler`, also with nonlinear drag. -/
theorem C127_waves_backward (B : Basin T K bc Hu He H) (dt : ℝ) (semi : Bool) (old new : State m)
    (ho : old ∈ Hu.prod He) (hdt : 0 ≤ dt)
    (h : UStep (fun _ => swe T K bc) RK.backwardEuler dt semi (Hu.prod He) old new) :
    waveEnergy T.g H new ≤ waveEnergy T.g H old := by
  rw [← B.energy, ← B.energy]
  exact C127_backward _ _ _ dt semi old new B.hasEnergy (fun v _ => B.passive v) ho hdt h

/-- C127: with a continuous elevation, without friction and viscosity, `CrankNicolson` with one half keeps wave energy exactly,
with rotation or without. -/
theorem C127_waves_conserved (B : Basin T K bc Hu He H) (dt : ℝ) (semi : Bool) (old new : State m) (he : T.etaDg = false)
    (N : NoDrag K bc) (hlin : K.linear = none) (hnu : K.nu = none) (ho : old ∈ Hu.prod He)
    (h : ThetaStep (swe T K bc) (swe T K bc) dt (1 / 2) semi (Hu.prod He) old new) :
    waveEnergy T.g H new = waveEnergy T.g H old := by
  rw [← B.energy, ← B.energy]
  refine C127_half _ _ _ dt semi old new B.hasEnergy (B.linear' old) (B.fixed semi (Or.inr N)) (fun x _ => ?_) ho h
  rw [B.power, B.wave_dgcg he, N.boundary, C79_coriolis]
  simp only [N.cd, N.farms, hlin, hnu, quadraticDrag, turbineDrag, viscosity, linearDrag, List.map_nil, List.sum_nil]
  ring

/-! ### The two-dimensional mode of the three-dimensional model -/

theorem modeSplit_eq (B : Basin T K bc Hu He H) (N : NoDrag K bc) (hlin : K.linear = none) (hnu : K.nu = none) :
    modeSplit T K bc = swe T K bc := by
  obtain ⟨h1, h2, h3, -, h5⟩ := B.free
  have hm : (modeSplit T K bc).mass = (swe T K bc).mass := by
    funext x y; exact (swe_mass T K bc B.linear.2.2 x y).symm
  have hi : (modeSplit T K bc).inner = (swe T K bc).inner := rfl
  have hr : (modeSplit T K bc).res = (swe T K bc).res := by
    funext u v w
    simp only [modeSplit, swe, B.momentum, N.boundary, h2, h3]
    simp only [N.cd, N.farms, hlin, hnu, quadraticDrag, turbineDrag, viscosity, linearDrag, momentumSource, atmPressure,
      List.map_nil, List.sum_nil]
    ring
  cases h : modeSplit T K bc
  cases h' : swe T K bc
  simp only [h, h'] at hm hi hr
  rw [hm, hi, hr]

/-- C127: the external mode of both coupled integrators (`DIRK22` and the trapezoidal rule, coupled_timeintegrator.py:409 and 571)
does not create wave energy, for any length of the external step. -/
theorem C127_mode (B : Basin T K bc Hu He H) (N : NoDrag K bc) (hlin : K.linear = none) (hnu : K.nu = none)
    (S : RK.Tableau) (hS : S = RK.dirk22 ∨ S = RK.esdirkTrapezoid) (dt : ℝ) (semi : Bool) (old new : State m)
    (ho : old ∈ Hu.prod He) (hdt : 0 ≤ dt)
    (h : TendencyStep (fun _ => modeSplit T K bc) S dt semi (Hu.prod He) old new) :
    waveEnergy T.g H new ≤ waveEnergy T.g H old := by
  rw [modeSplit_eq B N hlin hnu] at h
  rw [← B.energy, ← B.energy]
  rcases hS with rfl | rfl
  · exact C127_dirk22_tendency _ _ _ dt semi old new B.hasEnergy (B.linear' old) (B.fixed semi (Or.inr N)) (B.passive old) ho
      hdt h
  · exact C127_trapezoid _ _ _ _ dt semi old new (Or.inr rfl) B.hasEnergy (B.linear' old) (B.fixed semi (Or.inr N))
      (B.passive old) ho hdt h

end Verif.Contract
