import Verif.Swe.Lemmas
import Verif.Dg.Props

/-!
C76: the volume budget of the free surface equation.
-/

namespace Verif.Swe

open Verif.Dg

variable {m : Mesh 2}

/-- A function that is constant on each cell. -/
def CellConst (f : Sc m) : Prop := ∀ x i, (f (.cell x)).g i = 0

/-- Volume flux out of the plus side of an interior facet: mean depth times mean normal velocity, and the mean
depth times the speed of a gravity wave times the jump of the elevation. -/
noncomputable def facetFlux (T : Term m) (uv : Vc m) (eta etaOld : Sc m) (s : m.S) : ℝ :=
  let h := (depthAt T (.plus s) (etaOld (.plus s)).v + depthAt T (.minus s) (etaOld (.minus s)).v) / 2
  h * (∑ i, ((uv i (.plus s)).v + (uv i (.minus s)).v) / 2 * m.np s i) +
    h * Real.sqrt (T.g / h) * ((eta (.plus s)).v - (eta (.minus s)).v)

/-- C76: tested with a function that is constant on cells, such as the indicator of a cell, the divergence term is
the sum of one flux for each facet, leaving the plus side and entering the minus side, and of the fluxes through
the boundary.  The flux does not depend on the test function: what leaves a cell enters its neighbour. -/
theorem C76_local (T : Term m) (bc : ℕ → Option (Funcs m)) (uv : Vc m) (eta : Sc m) (uvOld : Vc m) (etaOld phi : Sc m)
    (hu : T.uDg = true) (he : T.etaDg = true) (hflat : m.Flat) (hn : ∀ s, ∑ i, m.np s i ^ 2 = 1) (ht : CellConst phi) :
    huDiv T bc uv eta uvOld etaOld phi =
      -(m.dS fun s => facetFlux T uv eta etaOld s * ((phi (.plus s)).v - (phi (.minus s)).v)) -
      ∑ b, m.wB b * (volFlux T bc uv eta uvOld etaOld (m.marker b) b * (phi (.bnd b)).v) := by
  unfold huDiv
  simp only [hu, he, if_true, bndLoop_eq]
  have h1 : (m.dx fun x => -∑ i, (phi (.cell x)).g i * ((totalH T etaOld (.cell x)).v * (uv i (.cell x)).v)) = 0 := by
    rw [← dx_zero (m := m)]
    exact dx_congr fun x => by simp [ht x]
  have h2 : (m.dS fun s => ∑ i, jumpN phi s i *
      (avg (totalH T etaOld) s * (avg (uv i) s + Real.sqrt (T.g / avg (totalH T etaOld) s) * jumpN eta s i))) =
      m.dS fun s => facetFlux T uv eta etaOld s * ((phi (.plus s)).v - (phi (.minus s)).v) := by
    refine dS_congr fun s => ?_
    have hs := hn s
    have ha : avg (totalH T etaOld) s =
        (depthAt T (.plus s) (etaOld (.plus s)).v + depthAt T (.minus s) (etaOld (.minus s)).v) / 2 := by
      simp only [avg, totalH_v]; ring
    unfold facetFlux
    rw [← ha]
    simp only [Fin.sum_univ_two] at hs ⊢
    simp only [jumpN, avg, hflat s]
    generalize Real.sqrt _ = q
    generalize (1 / 2 * ((totalH T etaOld (.plus s)).v + (totalH T etaOld (.minus s)).v)) = h
    linear_combination ((phi (.plus s)).v - (phi (.minus s)).v) * h * q *
      ((eta (.plus s)).v - (eta (.minus s)).v) * hs
  rw [h1, h2]
  ring

/-- C76: the total volume changes by the flux through the boundary and by the volume source only. -/
theorem C76_total (T : Term m) (K : Coeffs m) (bc : ℕ → Option (Funcs m)) (uv : Vc m) (eta : Sc m) (uvOld : Vc m)
    (etaOld : Sc m) (hu : T.uDg = true) (hflat : m.Flat) :
    continuity T K bc uv eta uvOld etaOld (cst m 1) =
      -(∑ b, m.wB b * volFlux T bc uv eta uvOld etaOld (m.marker b) b) +
      (K.volume.map fun s => m.dx fun x => (s (.cell x)).v).getD 0 := by
  unfold continuity huDiv volumeSource
  simp only [hu, if_true, bndLoop_eq, cst_apply, Jet.const_g, Jet.const_v, zero_mul, Finset.sum_const_zero, neg_zero,
    mul_one]
  have h2 : ∀ s i, jumpN (cst m 1) s i = 0 := fun s i => by simp [jumpN, hflat s]
  simp only [h2, zero_mul, Finset.sum_const_zero, dS_zero, dx_zero, ite_self, zero_add]
  cases K.volume <;> rfl

/-- C76: nothing flows through a closed boundary, also when water presses against it. -/
theorem C76_closed (T : Term m) (bc : ℕ → Option (Funcs m)) (uv : Vc m) (eta : Sc m) (uvOld : Vc m) (etaOld : Sc m)
    (k : ℕ) (b : m.B) (h : IsClosed (bc k)) : volFlux T bc uv eta uvOld etaOld k b = 0 := by
  simp [volFlux, openFuncs_closed h]

/-- C76: with closed boundaries and no source the volume is conserved. -/
theorem C76_conserved (T : Term m) (K : Coeffs m) (bc : ℕ → Option (Funcs m)) (uv : Vc m) (eta : Sc m) (uvOld : Vc m)
    (etaOld : Sc m) (hu : T.uDg = true) (hflat : m.Flat) (hb : ∀ k ∈ m.markers, IsClosed (bc k)) (hs : K.volume = none) :
    continuity T K bc uv eta uvOld etaOld (cst m 1) = 0 := by
  rw [C76_total T K bc uv eta uvOld etaOld hu hflat, hs]
  have : ∀ b, volFlux T bc uv eta uvOld etaOld (m.marker b) b = 0 := fun b =>
    C76_closed T bc uv eta uvOld etaOld _ b (hb _ (m.marker_mem b))
  simp [this]

/-- C76: what the mass term adds up is the total depth.  With wetting and drying this includes the displacement of the
bed. -/
theorem C76_mass (T : Term m) (eta eta' : Sc m) (hn : T.depth.nonlinear = true) :
    massEta T eta' (cst m 1) - massEta T eta (cst m 1) =
      m.dx (fun x => depthAt T (.cell x) (eta' (.cell x)).v) - m.dx fun x => depthAt T (.cell x) (eta (.cell x)).v := by
  have key : ∀ e : Sc m, massEta T e (cst m 1) =
      m.dx (fun x => depthAt T (.cell x) (e (.cell x)).v) - m.dx fun x => (T.depth.bathymetry (.cell x)).v := by
    intro e
    unfold massEta
    simp only [cst_apply, Jet.const_v, mul_one, neg_neg]
    rw [← dx_add, ← dx_sub]
    refine dx_congr fun x => ?_
    rw [← totalH_v]
    simp only [totalH, Depth.total, hn, if_true, Jet.add_v]
    ring
  rw [key, key]
  ring

/-- C76: without wetting and drying, and in the linear equations, the mass term is the integral of the elevation. -/
theorem C76_mass_linear (T : Term m) (eta phi : Sc m) (hw : T.depth.wetdry = false) :
    massEta T eta phi = m.dx fun x => (eta (.cell x)).v * (phi (.cell x)).v := by
  unfold massEta
  simp [Depth.displacement, hw, dx_zero]

/-- Explicit Riemann flux through an open boundary with external elevation `ee` and normal velocity `ue`, and with the
external elevation `eo` and normal velocity `uo` found from the old solution. -/
noncomputable def riemannFlux (T : Term m) (x : Pt m) (g eta un etaOld unOld ee ue eo uo : ℝ) : ℝ :=
  let h := (depthAt T x etaOld + depthAt T x eo) / 2
  depthAt T x ((etaOld + eo) / 2 + Real.sqrt (h / g) * (unOld - uo)) * ((un + ue) / 2 + Real.sqrt (g / h) * (eta - ee))

/-- C76: the flux through an open boundary is that of the Riemann solution between the interior values and the values
given by the dictionary. -/
theorem C76_open (T : Term m) (bc : ℕ → Option (Funcs m)) (uv : Vc m) (eta : Sc m) (uvOld : Vc m) (etaOld : Sc m)
    (k : ℕ) (b : m.B) (l : Funcs m) (r ro : ℝ × (Fin 2 → ℝ)) (hl : bc k = some l) (ho : imposeLoop l = .ok true)
    (hr : bndFunctions T l k b (eta (.bnd b)).v (atB uv b) = some r)
    (hro : bndFunctions T l k b (etaOld (.bnd b)).v (atB uvOld b) = some ro) :
    volFlux T bc uv eta uvOld etaOld k b =
      riemannFlux T (.bnd b) T.g (eta (.bnd b)).v (∑ i, (uv i (.bnd b)).v * m.nb b i) (etaOld (.bnd b)).v
        (∑ i, (uvOld i (.bnd b)).v * m.nb b i) r.1 (∑ i, r.2 i * m.nb b i) ro.1 (∑ i, ro.2 i * m.nb b i) := by
  have h1 : openFuncs (bc k) = some l := by rw [hl]; simp [openFuncs, imposeDynamic, ho]
  unfold volFlux
  rw [h1]
  simp only [fluxOpen, bndF, hr, hro, Option.getD_some, riemannFlux, totalH_v]
  have e1 : (∑ i, (atB uvOld b i - ro.2 i) * m.nb b i) =
      (∑ i, (uvOld i (.bnd b)).v * m.nb b i) - ∑ i, ro.2 i * m.nb b i := by
    simp only [Fin.sum_univ_two, atB]; ring
  have e2 : (∑ i, (atB uv b i + r.2 i) * m.nb b i) =
      (∑ i, (uv i (.bnd b)).v * m.nb b i) + ∑ i, r.2 i * m.nb b i := by
    simp only [Fin.sum_univ_two, atB]; ring
  have e3 : ∀ x y : ℝ, 1 / 2 * (x + y) = (x + y) / 2 := fun x y => by ring
  rw [e1, e2]
  simp only [e3]

/-- The dictionary prescribes the volume flux `q` and nothing else. -/
def fluxOnly (q : ℝ) : Funcs m := [.flux fun _ => q]

theorem flux_bnd (T : Term m) (k : ℕ) (b : m.B) (q e : ℝ) (u : Fin 2 → ℝ) :
    bndFunctions T (fluxOnly q) k b e u = some (e, fun i => q / (depthAt T (.bnd b) e * T.blen k) * m.nb b i) := rfl

/-- C76: a prescribed volume flux passes exactly when the normal velocity inside already matches it: then the total
flux through the boundary is `q`, whatever the depth along it. -/
theorem C76_flux (T : Term m) (bc : ℕ → Option (Funcs m)) (uv : Vc m) (eta : Sc m) (k : ℕ) (q : ℝ)
    (hk : bc k = some (fluxOnly q)) (hunit : m.UnitNormals)
    (hlen : T.blen k ≠ 0) (hl : (∑ b, if m.marker b = k then m.wB b else 0) = T.blen k)
    (hh : ∀ b, m.marker b = k → depthAt T (.bnd b) (eta (.bnd b)).v ≠ 0)
    (hu : ∀ b, m.marker b = k → ∑ i, (uv i (.bnd b)).v * m.nb b i =
      q / (depthAt T (.bnd b) (eta (.bnd b)).v * T.blen k)) :
    m.ds k (fun b => volFlux T bc uv eta uv eta k b) = q := by
  have key : ∀ b, m.marker b = k → volFlux T bc uv eta uv eta k b = q / T.blen k := by
    intro b hb
    rw [C76_open T bc uv eta uv eta k b (fluxOnly q) _ _ hk rfl (flux_bnd T k b q _ _) (flux_bnd T k b q _ _), hu b hb]
    have h1 : (∑ i, q / (depthAt T (.bnd b) (eta (.bnd b)).v * T.blen k) * m.nb b i * m.nb b i) =
        q / (depthAt T (.bnd b) (eta (.bnd b)).v * T.blen k) := by
      have := hunit.2.2 b
      simp only [Fin.sum_univ_two] at this ⊢
      linear_combination q / (depthAt T (.bnd b) (eta (.bnd b)).v * T.blen k) * this
    rw [h1]
    have h0 := hh b hb
    simp only [riemannFlux, sub_self, mul_zero, add_zero, add_self_div_two]
    field_simp
  have : m.ds k (fun b => volFlux T bc uv eta uv eta k b) =
      q / T.blen k * ∑ b, if m.marker b = k then m.wB b else 0 := by
    unfold Mesh.ds
    rw [Finset.mul_sum]
    refine Finset.sum_congr rfl fun b _ => ?_
    by_cases hb : m.marker b = k
    · rw [if_pos hb, if_pos hb]; simp only [key b hb]; ring
    · rw [if_neg hb, if_neg hb, mul_zero]
  rw [this, hl]
  field_simp

/-- C76: water at rest next to a boundary with prescribed flux `q`: in the linear equations half of it passes. -/
theorem C76_flux_half (T : Term m) (bc : ℕ → Option (Funcs m)) (uv : Vc m) (eta : Sc m) (k : ℕ) (q : ℝ)
    (hk : bc k = some (fluxOnly q)) (hunit : m.UnitNormals) (hlin : T.depth.nonlinear = false)
    (hlen : T.blen k ≠ 0) (hl : (∑ b, if m.marker b = k then m.wB b else 0) = T.blen k)
    (hh : ∀ b, m.marker b = k → (T.depth.bathymetry (.bnd b)).v ≠ 0)
    (hu : ∀ b i, m.marker b = k → (uv i (.bnd b)).v = 0) :
    m.ds k (fun b => volFlux T bc uv eta uv eta k b) = q / 2 := by
  have key : ∀ b, m.marker b = k → volFlux T bc uv eta uv eta k b = q / T.blen k / 2 := by
    intro b hb
    rw [C76_open T bc uv eta uv eta k b (fluxOnly q) _ _ hk rfl (flux_bnd T k b q _ _) (flux_bnd T k b q _ _)]
    have h1 : (∑ i, q / (depthAt T (.bnd b) (eta (.bnd b)).v * T.blen k) * m.nb b i * m.nb b i) =
        q / (depthAt T (.bnd b) (eta (.bnd b)).v * T.blen k) := by
      have := hunit.2.2 b
      simp only [Fin.sum_univ_two] at this ⊢
      linear_combination q / (depthAt T (.bnd b) (eta (.bnd b)).v * T.blen k) * this
    rw [h1]
    have h0 := hh b hb
    simp only [riemannFlux, sub_self, mul_zero, add_zero, hu b _ hb, depthAt_linear T hlin, zero_mul,
      Finset.sum_const_zero, zero_add]
    field_simp
  have : m.ds k (fun b => volFlux T bc uv eta uv eta k b) =
      q / T.blen k / 2 * ∑ b, if m.marker b = k then m.wB b else 0 := by
    unfold Mesh.ds
    rw [Finset.mul_sum]
    refine Finset.sum_congr rfl fun b _ => ?_
    by_cases hb : m.marker b = k
    · rw [if_pos hb, if_pos hb]; simp only [key b hb]; ring
    · rw [if_neg hb, if_neg hb, mul_zero]
  rw [this, hl]
  field_simp

/-- C76: with a continuous velocity space (no integration by parts) the volume changes by the flux of the interior
velocity through the open boundaries; where `un` is prescribed nothing passes, whatever its value. -/
theorem C76_continuous (T : Term m) (K : Coeffs m) (bc : ℕ → Option (Funcs m)) (uv : Vc m) (eta : Sc m) (uvOld : Vc m)
    (etaOld : Sc m) (hu : T.uDg = false) (hs : K.volume = none)
    (hc : ∀ s, jumpV (fun i => totalH T etaOld * uv i) s = 0)
    (hd : DivExact m fun i => totalH T etaOld * uv i) :
    continuity T K bc uv eta uvOld etaOld (cst m 1) =
      -(∑ b, m.wB b * match openFuncs (bc (m.marker b)) with
        | some f => if f.un.isSome then 0 else
          depthAt T (.bnd b) (etaOld (.bnd b)).v * ∑ i, (uv i (.bnd b)).v * m.nb b i
        | none => 0) := by
  unfold continuity huDiv volumeSource
  simp only [hu, hs, if_false, bndLoop_eq, cst_apply, Jet.const_v, mul_one, add_zero, Bool.false_eq_true]
  unfold DivExact at hd
  rw [hd]
  simp only [hc, dS_zero, zero_add]
  rw [← dB_add]
  congr 1
  refine dB_congr fun b => ?_
  have e : normalAt (fun i => totalH T etaOld * uv i) b = (totalH T etaOld (.bnd b)).v * normalAt uv b := by
    simp only [normalAt, Fin.sum_univ_two, Pi.mul_apply, Jet.mul_v]; ring
  rw [e]
  rw [totalH_v]
  unfold walled
  cases openFuncs (bc (m.marker b)) with
  | none => simp [normalAt]
  | some f =>
    simp only
    split <;> simp [normalAt]

/-! ### Examples on the square -/

/-- Linear equations over water of depth 10 with discontinuous spaces. -/
noncomputable def exTerm : Term square where
  depth := ⟨cst square 10, false, false, cst square 0⟩
  g := 10
  rho0 := 1000
  uDg := true
  etaDg := true
  blen := fun _ => 1
  nonlinear := false
  lf := false
  lfFactor := 1
  sipg := cst square 1
  p := 1
  triangle := true
  gradDiv := false
  gradDepth := false
  smoother := 0

/-- No coefficient is set. -/
def noCoeffs : Coeffs m := ⟨none, none, none, none, none, none, none, none, none, none, []⟩

/-- Water at rest. -/
def rest (m : Mesh 2) : Vc m := fun _ => cst m 0

theorem square_length (k : ℕ) (hk : k = 1 ∨ k = 2 ∨ k = 3 ∨ k = 4) :
    (∑ b, if square.marker b = k then square.wB b else 0) = 1 := by
  have e := sum_sqB fun b => if sqMarker b = k then sqWB b else 0
  change (∑ b : SqB, if sqMarker b = k then sqWB b else 0) = 1
  rw [e]
  rcases hk with rfl | rfl | rfl | rfl <;> norm_num [sqMarker, sqWB]

/-- Flux 1 through the left side. -/
noncomputable def exBc : ℕ → Option (Funcs square) := fun k => if k = 2 then some (fluxOnly 1) else none

/-- The hypotheses of `C76_flux` hold in uniform flow to the left with the velocity 1/10. -/
example : square.ds 2 (fun b => volFlux exTerm exBc
    (fun i => cst square (if i = 0 then -(1 / 10) else 0)) (cst square 0)
    (fun i => cst square (if i = 0 then -(1 / 10) else 0)) (cst square 0) 2 b) = 1 :=
  C76_flux exTerm exBc _ _ 2 1 (by simp [exBc]) square_unit (by norm_num [exTerm])
    (square_length 2 (by simp))
    (fun b _ => by rw [depthAt_linear _ rfl]; simp [exTerm])
    (fun b hb => by
      rw [depthAt_linear _ rfl, Fin.sum_univ_two]
      change (cst square _ _).v * sqNx b + (cst square _ _).v * sqNy b = _
      change sqMarker b = 2 at hb
      cases b <;> simp [sqMarker] at hb <;> simp [sqNx, sqNy, exTerm])

/-- C76 (violated): the documentation of the boundary tag says that `flux` is the volume flux out of the domain, but
next to water at rest half of the prescribed flux of 1 passes. -/
theorem C76_flux_violated :
    square.ds 2 (fun b => volFlux exTerm exBc (rest square) (cst square 0) (rest square) (cst square 0) 2 b) ≠ 1 := by
  rw [C76_flux_half exTerm exBc (rest square) (cst square 0) 2 1 (by simp [exBc]) square_unit rfl
    (by norm_num [exTerm]) (square_length 2 (by simp)) (fun b _ => by simp [exTerm]) (fun b i _ => by simp [rest])]
  norm_num

/-- A closed basin: `C76_conserved` applies to every state. -/
example (uv : Vc square) (eta : Sc square) :
    continuity exTerm noCoeffs (fun _ => none) uv eta uv eta (cst square 1) = 0 :=
  C76_conserved exTerm noCoeffs _ uv eta uv eta rfl square_flat (fun _ _ _ h => by simp at h) rfl

/-- Wetting and drying over a flat bed at level zero with parameter 12. -/
noncomputable def exWet : Term square := { exTerm with depth := ⟨cst square 0, true, true, cst square 12⟩ }

/-- An elevation that is constant on each triangle. -/
noncomputable def twoLevels (a b : ℝ) : Sc square := squareField ⟨a, 0, 0, 0, 0, 0⟩ ⟨b, 0, 0, 0, 0, 0⟩

theorem wet_depth (x : Pt square) (e r : ℝ) (h : e * e + 144 = r * r) (hr : 0 ≤ r) :
    depthAt exWet x e = (e + r) / 2 := by
  have : Real.sqrt (e * e + 12 * 12) = r := by
    rw [show e * e + 12 * 12 = r * r by linarith]; exact Real.sqrt_mul_self hr
  simp only [depthAt, exWet, Depth.total, Depth.displacement, if_true, Jet.add_v, Jet.mul_v, Jet.sub_v, Jet.sqrt,
    cst_apply, Jet.const_v, zero_add]
  rw [this]
  ring

/-- C76 (violated): the check `volume2d` of the model output integrates elevation and bathymetry (utility.py:422-425).
With wetting and drying this integral is not what the equation conserves: the two elevations hold the same
volume of water, so that the mass term does not tell them apart, but the integral differs. -/
theorem C76_callback_violated :
    massEta exWet (twoLevels 9 0) (cst square 1) = massEta exWet (twoLevels 5 5) (cst square 1) ∧
    square.dx (fun x => (twoLevels 9 0 (.cell x)).v + (exWet.depth.bathymetry (.cell x)).v) ≠
      square.dx (fun x => (twoLevels 5 5 (.cell x)).v + (exWet.depth.bathymetry (.cell x)).v) := by
  have hl : ∀ a b : ℝ, ∀ F : ℝ → Pt square → ℝ, square.dx (fun x => F (twoLevels a b (.cell x)).v (.cell x)) =
      (F a (.cell .l0) + F a (.cell .l1) + F a (.cell .l2) + F b (.cell .u0) + F b (.cell .u1) +
        F b (.cell .u2)) / 6 := by
    intro a b F
    have e := sum_sqC fun c => (1 / 6 : ℝ) * F (twoLevels a b (.cell c)).v (.cell c)
    change (∑ c : SqC, (1 / 6 : ℝ) * F (twoLevels a b (.cell c)).v (.cell c)) = _
    rw [e]
    simp [twoLevels, squareField, Quad.jet]
    ring
  constructor
  · have h := C76_mass exWet (twoLevels 9 0) (twoLevels 5 5) rfl
    have h1 := hl 9 0 fun e x => depthAt exWet x e
    have h2 := hl 5 5 fun e x => depthAt exWet x e
    have d9 := fun x => wet_depth x 9 15 (by norm_num) (by norm_num)
    have d0 := fun x => wet_depth x 0 12 (by norm_num) (by norm_num)
    have d5 := fun x => wet_depth x 5 13 (by norm_num) (by norm_num)
    simp only [d9, d0, d5] at h1 h2
    rw [h1, h2] at h
    norm_num at h
    linarith
  · have h1 := hl 9 0 fun e x => e + (exWet.depth.bathymetry x).v
    have h2 := hl 5 5 fun e x => e + (exWet.depth.bathymetry x).v
    rw [h1, h2]
    simp [exWet]
    norm_num

end Verif.Swe
