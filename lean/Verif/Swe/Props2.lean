import Verif.Swe.Props

/-!
C77: water at rest stays at rest.  C78: energy of the linear equations.
-/

namespace Verif.Swe

open Verif.Dg

variable {m : Mesh 2}

/-! ### C77 -/

/-- The entry agrees with water at rest with elevation `E`. -/
def Entry.still (E : ℝ) : Entry m → Prop
  | .elev f => ∀ b, f b = E
  | .uv f => ∀ b i, f b i = 0
  | .un f => ∀ b, f b = 0
  | .flux f => ∀ b, f b = 0
  | .drag _ => True
  | .other _ => True

/-- Every boundary dictionary agrees with water at rest with elevation `E`. -/
def Still (E : ℝ) (bc : ℕ → Option (Funcs m)) : Prop := ∀ k l, bc k = some l → ∀ e ∈ l, e.still E

theorem mem_elev {l : Funcs m} {f : m.B → ℝ} (h : l.elev = some f) : .elev f ∈ l := by
  obtain ⟨e, he, h2⟩ := List.exists_of_findSome?_eq_some h
  cases e <;> simp at h2
  subst h2; exact he

theorem mem_uv {l : Funcs m} {f : m.B → Fin 2 → ℝ} (h : l.uv = some f) : .uv f ∈ l := by
  obtain ⟨e, he, h2⟩ := List.exists_of_findSome?_eq_some h
  cases e <;> simp at h2
  subst h2; exact he

theorem mem_un {l : Funcs m} {f : m.B → ℝ} (h : l.un = some f) : .un f ∈ l := by
  obtain ⟨e, he, h2⟩ := List.exists_of_findSome?_eq_some h
  cases e <;> simp at h2
  subst h2; exact he

theorem mem_flux {l : Funcs m} {f : m.B → ℝ} (h : l.flux = some f) : .flux f ∈ l := by
  obtain ⟨e, he, h2⟩ := List.exists_of_findSome?_eq_some h
  cases e <;> simp at h2
  subst h2; exact he

theorem still_bndF (T : Term m) (E : ℝ) (l : Funcs m) (h : ∀ e ∈ l, e.still E) (k : ℕ) (b : m.B) :
    bndF T l k b E (fun _ => 0) = (E, fun _ => 0) := by
  unfold bndF bndFunctions
  have h1 : ∀ f, l.elev = some f → f b = E := fun f hf => h _ (mem_elev hf) b
  have h2 : ∀ f, l.uv = some f → f b = fun _ => 0 := fun f hf => funext fun i => h _ (mem_uv hf) b i
  have h3 : ∀ f, l.un = some f → f b = 0 := fun f hf => h _ (mem_un hf) b
  have h4 : ∀ f, l.flux = some f → f b = 0 := fun f hf => h _ (mem_flux hf) b
  rcases e1 : l.elev with _ | f1 <;> rcases e2 : l.uv with _ | f2 <;> rcases e3 : l.un with _ | f3 <;>
    rcases e4 : l.flux with _ | f4 <;> simp_all

theorem atB_rest (b : m.B) : atB (rest m) b = fun _ => 0 := rfl

theorem normalAt_rest (b : m.B) : normalAt (rest m) b = 0 := by simp [normalAt, rest]

theorem still_headBnd (T : Term m) (E : ℝ) (bc : ℕ → Option (Funcs m)) (h : Still E bc) (k : ℕ) (b : m.B) :
    headBnd T bc (rest m) (cst m E) (cst m E) k b = E := by
  unfold headBnd
  split
  · next f hf =>
    have := still_bndF T E f (h k f (open_some hf).1) k b
    simp only [headOpen, cst_apply, Jet.const_v, atB_rest, this]
    simp
    ring
  · simp [normalAt_rest]

theorem still_headCorr (T : Term m) (E : ℝ) (bc : ℕ → Option (Funcs m)) (h : Still E bc) (k : ℕ) (b : m.B) :
    headCorr T bc (rest m) (cst m E) (cst m E) k b = 0 := by
  unfold headCorr
  split
  · next f hf =>
    have := still_bndF T E f (h k f (open_some hf).1) k b
    simp only [headOpen, cst_apply, Jet.const_v, atB_rest, this]
    simp
    ring
  · rfl

theorem still_volFlux (T : Term m) (E : ℝ) (bc : ℕ → Option (Funcs m)) (h : Still E bc) (k : ℕ) (b : m.B) :
    volFlux T bc (rest m) (cst m E) (rest m) (cst m E) k b = 0 := by
  unfold volFlux
  split
  · next f hf =>
    have := still_bndF T E f (h k f (open_some hf).1) k b
    simp only [fluxOpen, cst_apply, Jet.const_v, atB_rest, this]
    simp
  · rfl

/-- The pressure gradient of a level surface is zero. -/
theorem C77_pressure (T : Term m) (E : ℝ) (bc : ℕ → Option (Funcs m)) (w : Vc m) (h : Still E bc)
    (hd : T.etaDg = true → DivExact m w) : pressure T bc (rest m) (cst m E) (cst m E) w = 0 := by
  unfold pressure
  by_cases he : T.etaDg = true
  · have hd := hd he
    simp only [he, if_true, bndLoop_eq, cst_apply, Jet.const_v, still_headBnd T E bc h]
    have h1 : ∀ s, avg (cst m E) s = E := fun s => by simp [avg]; ring
    have h2 : ∀ s, jumpV (rest m) s = 0 := fun s => by simp [jumpV, rest]
    simp only [h1, h2, mul_zero, add_zero]
    rw [dx_neg, dx_smul, dS_smul, dB_smul, hd]
    ring
  · simp only [he, bndLoop_eq, cst_apply, Jet.const_g, still_headCorr T E bc h, if_false, Bool.false_eq_true]
    simp [dx_zero]

theorem C77_viscosity (T : Term m) (E : ℝ) (bc : ℕ → Option (Funcs m)) (nu : Option (Sc m)) (w : Vc m)
    (h : Still E bc) : viscosity T bc nu (rest m) (cst m E) (cst m E) w = 0 := by
  unfold viscosity
  cases nu with
  | none => rfl
  | some nu =>
    have h1 : ∀ x i j, stress T nu (rest m) x i j = 0 := fun x i j => by simp [stress, symm, rest]
    have h2 : ∀ s i j, symm T (tensorJump (rest m) s) i j = 0 := fun s i j => by simp [symm, tensorJump, rest]
    have h3 : ∀ k b d, deltaUv T bc (rest m) (cst m E) k b = some d → d = fun _ => 0 := by
      intro k b d hd
      unfold deltaUv at hd
      split at hd
      · cases hd
      · next f hf =>
        have hs := h k f (open_some hf).1
        split at hd
        · next u hu =>
          have : u b = 0 := hs _ (mem_un hu) b
          simp only [Option.some.injEq] at hd
          rw [← hd]
          funext i
          simp [normalAt_rest, this]
        · split at hd
          · simp only [Option.some.injEq] at hd
            rw [← hd]
            funext i
            have := still_bndF T E f hs k b
            simp only [cst_apply, Jet.const_v, atB_rest, this, sub_self]
          · cases hd
    simp only [h1, h2, mul_zero, sub_self, Finset.sum_const_zero, dx_zero, dS_zero, neg_zero, ite_self, add_zero, zero_add,
      bndLoop_eq]
    have h4 : ∀ b : m.B, viscBnd T bc nu (rest m) (cst m E) w (m.marker b) b = 0 := by
      intro b
      unfold viscBnd
      cases hd : deltaUv T bc (rest m) (cst m E) (m.marker b) b with
      | none => rfl
      | some d =>
        have := h3 _ _ _ hd
        subst this
        simp [symm, h1]
    simp only [h4]
    simp

theorem C77_advection (T : Term m) (E : ℝ) (bc : ℕ → Option (Funcs m)) (w : Vc m) (h : Still E bc) :
    advection T bc (rest m) (cst m E) (rest m) (cst m E) w = 0 := by
  unfold advection
  have h1 : ∀ s i, avg (rest m i) s = 0 := fun s i => by simp [avg, rest]
  have h2 : ∀ s i, jump (rest m i) s = 0 := fun s i => by simp [jump, rest]
  have h3 : ∀ x i, (rest m i x).v = 0 := fun x i => rfl
  have h4 : ∀ b f, openFuncs (bc (m.marker b)) = some f → ∀ i,
      momFlux T f (m.marker b) (rest m) (cst m E) (rest m) (cst m E) b i = 0 := by
    intro b f hf i
    have := still_bndF T E f (h _ f (open_some hf).1) (m.marker b) b
    simp only [momFlux, cst_apply, Jet.const_v, atB_rest, this]
    simp
  simp only [h1, h2, h3, bndLoop_eq, mul_zero, zero_mul, Finset.sum_const_zero, neg_zero, dx_zero, dS_zero, abs_zero]
  have h5 : ∀ b : m.B, momBnd T bc (rest m) (cst m E) (rest m) (cst m E) w (m.marker b) b = 0 := by
    intro b
    unfold momBnd
    cases hf : openFuncs (bc (m.marker b)) with
    | none => rfl
    | some f => simp [h4 b f hf]
  have h6 : ∀ b : m.B, lfBnd T bc (rest m) (rest m) w (m.marker b) b = 0 := by
    intro b
    unfold lfBnd
    cases openFuncs (bc (m.marker b)) <;> simp [normalAt_rest]
  simp only [h5, h6]
  simp

/-- C77: water at rest with a level surface stays at rest, over any bathymetry, with or without wetting and drying,
friction, viscosity, Coriolis force and turbines, with closed boundaries or boundaries that prescribe the same
elevation, no velocity or no flux.  The residual is zero for every test function. -/
theorem C77_rest (T : Term m) (K : Coeffs m) (E : ℝ) (bc : ℕ → Option (Funcs m)) (w : Vc m) (phi : Sc m)
    (h : Still E bc) (hd : T.etaDg = true → DivExact m w) (hflat : m.Flat) (hun : T.uDg = true)
    (h1 : K.wind = none) (h2 : K.pressure = none) (h3 : K.source = none) (h4 : K.volume = none)
    (h5 : ∀ u, K.uvBottom = some u → u = rest m) :
    momentum T K bc (rest m) (cst m E) (rest m) (cst m E) w = 0 ∧
    continuity T K bc (rest m) (cst m E) (rest m) (cst m E) phi = 0 := by
  have hr : ∀ x i, (rest m i x).v = 0 := fun x i => rfl
  constructor
  · unfold momentum
    rw [C77_pressure T E bc w h hd, C77_advection T E bc w h, C77_viscosity T E bc K.nu w h, h1, h2, h3]
    have e1 : coriolis K.coriolis (rest m) w = 0 := by
      unfold coriolis; cases K.coriolis <;> simp [hr, dx_zero]
    have e2 : quadraticDrag T K.cd (rest m) (rest m) (cst m E) w = 0 := by
      unfold quadraticDrag; cases K.cd <;> simp [hr, dx_zero]
    have e3 : linearDrag K.linear (rest m) w = 0 := by
      unfold linearDrag; cases K.linear <;> simp [hr, dx_zero]
    have e4 : boundaryDrag bc (rest m) (rest m) w = 0 := by
      unfold boundaryDrag
      rw [bndLoop_eq]
      have : ∀ b : m.B, dragBnd bc (rest m) (rest m) w (m.marker b) b = 0 := by
        intro b
        unfold dragBnd
        cases (bc (m.marker b)).bind Funcs.drag <;> simp [tangential, atB_rest, normalAt_rest]
      simp only [this]
      simp
    have e5 : bottomDrag3d T K.bottomDrag K.uvBottom (cst m E) w = 0 := by
      unfold bottomDrag3d
      cases K.bottomDrag with
      | none => rfl
      | some cd =>
        cases hu : K.uvBottom with
        | none => rfl
        | some u =>
          have := h5 u hu
          subst this
          simp [hr, dx_zero]
    have e6 : turbineDrag T K.farms (rest m) (rest m) (cst m E) w = 0 := by
      unfold turbineDrag
      simp only [hr, mul_zero, Finset.sum_const_zero, zero_div, ite_self, dx_zero]
      simp
    rw [e1, e2, e3, e4, e5, e6]
    simp [windStress, atmPressure, momentumSource]
  · unfold continuity huDiv volumeSource
    simp only [h4, hun, if_true, hr, mul_zero, Finset.sum_const_zero, neg_zero, dx_zero, bndLoop_eq,
      still_volFlux T E bc h, zero_mul]
    have e1 : ∀ s i, jumpN (cst m E) s i = 0 := fun s i => by simp [jumpN, hflat s]
    have e2 : ∀ s i, avg (rest m i) s = 0 := fun s i => by simp [avg, rest]
    simp [e1, e2, dS_zero]

/-- The hypotheses hold for water of level 3 in the square with a boundary of that elevation, a wall with friction and
an inflow of zero, over a sloping bed, with wetting and drying. -/
example (phi : Sc square) (lo up : Fin 2 → Quad) :
    let T : Term square := { exTerm with
      depth := ⟨squareField ⟨1, 2, 0, 0, 0, 0⟩ ⟨1, 2, 0, 0, 0, 0⟩, true, true, cst square 1⟩, nonlinear := true }
    let K : Coeffs square := { noCoeffs with nu := some (cst square 1), cd := some fun _ => 1 }
    let bc : ℕ → Option (Funcs square) := fun k =>
      if k = 1 then some [.elev fun _ => 3] else if k = 2 then some [.drag fun _ => 1]
      else if k = 3 then some [.un fun _ => 0] else none
    momentum T K bc (rest square) (cst square 3) (rest square) (cst square 3) (fun i => squareField (lo i) (up i)) = 0 ∧
    continuity T K bc (rest square) (cst square 3) (rest square) (cst square 3) phi = 0 := by
  intro T K bc
  refine C77_rest T K 3 bc _ phi ?_ (fun _ => square_divExact lo up) square_flat rfl rfl rfl rfl rfl ?_
  · intro k l hl e he
    simp only [bc] at hl
    split at hl
    · simp at hl; subst hl; simp at he; subst he; intro b; rfl
    · split at hl
      · simp at hl; subst hl; simp at he; subst he; trivial
      · split at hl
        · simp at hl; subst hl; simp at he; subst he; intro b; rfl
        · cases hl
  · intro u hu; simp [K, noCoeffs] at hu

/-- C77: for water at rest with a continuous surface between closed boundaries the pressure term is the surface slope,
integrated without facets. -/
theorem C77_slope (T : Term m) (bc : ℕ → Option (Funcs m)) (eta : Sc m) (w : Vc m)
    (hb : ∀ k ∈ m.markers, IsClosed (bc k)) (hc : ∀ s, (eta (.plus s)).v = (eta (.minus s)).v)
    (hd : T.etaDg = true → DivExact m fun i => eta * w i) :
    pressure T bc (rest m) eta eta w = -(T.g * m.dx fun x => ∑ i, (eta (.cell x)).g i * (w i (.cell x)).v) := by
  have hop : ∀ b, openFuncs (bc (m.marker b)) = none := fun b => openFuncs_closed (hb _ (m.marker_mem b))
  unfold pressure
  by_cases he : T.etaDg = true
  · have hd := hd he
    simp only [he, if_true, bndLoop_eq, headBnd, hop, normalAt_rest, mul_zero, add_zero]
    have h2 : ∀ s, jumpV (rest m) s = 0 := fun s => by simp [jumpV, rest]
    have h1 : ∀ s, T.g * avg eta s * jumpV w s = T.g * jumpV (fun i => eta * w i) s := fun s => by
      simp only [avg, jumpV, hc s, Pi.mul_apply, Jet.mul_v, Fin.sum_univ_two]; ring
    have h3 : ∀ x, -(T.g * (eta (.cell x)).v * div w (.cell x)) =
        T.g * (∑ i, (eta (.cell x)).g i * (w i (.cell x)).v) - T.g * div (fun i => eta * w i) (.cell x) := fun x => by
      simp only [div, Pi.mul_apply, Jet.mul_g, Fin.sum_univ_two]; ring
    have h4 : ∀ b, T.g * (eta (.bnd b)).v * normalAt w b = T.g * normalAt (fun i => eta * w i) b := fun b => by
      simp only [normalAt, Pi.mul_apply, Jet.mul_v, Fin.sum_univ_two]; ring
    simp only [h1, h2, h3, h4, mul_zero, add_zero]
    rw [dx_sub, dx_smul, dx_smul, dS_smul, dB_smul, hd]
    ring
  · simp only [he, bndLoop_eq, headCorr, hop, if_false, Bool.false_eq_true, zero_mul, mul_zero, dx_smul]
    simp

/-- C77: the inverse barometer.  The surface that lies lower by `p/(g rho0)` under the air pressure `p` is in balance. -/
theorem C77_barometer (T : Term m) (bc : ℕ → Option (Funcs m)) (E : ℝ) (p : Sc m) (w : Vc m)
    (hb : ∀ k ∈ m.markers, IsClosed (bc k)) (hg : T.g ≠ 0)
    (hc : ∀ s, (p (.plus s)).v = (p (.minus s)).v) :
    let eta : Sc m := fun x => Jet.const E - Jet.const (1 / (T.g * T.rho0)) * p x
    (T.etaDg = true → DivExact m fun i => eta * w i) →
    pressure T bc (rest m) eta eta w + atmPressure T (some p) w = 0 := by
  intro eta hd
  rw [C77_slope T bc eta w hb (fun s => by simp [eta, hc s]) hd]
  unfold atmPressure
  have : ∀ x, (∑ i, (p (.cell x)).g i * (w i (.cell x)).v) / T.rho0 =
      -T.g * ∑ i, (eta (.cell x)).g i * (w i (.cell x)).v := fun x => by
    simp only [eta, Jet.sub_g, Jet.mul_g, Jet.const_g, Jet.const_v, Fin.sum_univ_two]
    by_cases hr : T.rho0 = 0
    · simp [hr]
    · field_simp; ring
  simp only [this]
  rw [dx_smul]
  ring

/-! ### C78 -/

/-- Power loss at an interior facet: gravity wave speed times the squares of the jumps of the normal velocity and of
the elevation. -/
noncomputable def facetLoss (g H : ℝ) (uv : Vc m) (eta : Sc m) (s : m.S) : ℝ :=
  g * H * (Real.sqrt (H / g) * (∑ i, ((uv i (.plus s)).v - (uv i (.minus s)).v) * m.np s i) ^ 2 +
    Real.sqrt (g / H) * ((eta (.plus s)).v - (eta (.minus s)).v) ^ 2)

/-- C78: the energy `∫ H |u|²/2 + g η²/2` of the linear equations over water of constant depth: the terms of pressure and
divergence exchange energy without loss, up to the jumps at facets and what the boundary does.  There the head `head` and
the volume flux `flux` of the boundary condition enter. -/
theorem C78_general (T : Term m) (bc : ℕ → Option (Funcs m)) (uv : Vc m) (eta : Sc m) (uvOld : Vc m) (etaOld : Sc m)
    (H : ℝ) (hlin : T.depth.nonlinear = false) (hH : ∀ x, T.depth.bathymetry x = Jet.const H)
    (hu : T.uDg = true) (he : T.etaDg = true) (hflat : m.Flat) (hunit : m.UnitNormals)
    (hd : DivExact m fun i => eta * uv i) :
    H * pressure T bc uv eta etaOld uv + T.g * huDiv T bc uv eta uvOld etaOld eta =
      -(m.dS fun s => facetLoss T.g H uv eta s) -
      ∑ b, m.wB b * (let un := ∑ i, (uv i (.bnd b)).v * m.nb b i
        let head := headBnd T bc uv eta etaOld (m.marker b) b
        let flux := volFlux T bc uv eta uvOld etaOld (m.marker b) b
        T.g * H * (head - (eta (.bnd b)).v) * un + T.g * flux * (eta (.bnd b)).v) := by
  have hv : ∀ x, (T.depth.bathymetry x).v = H := fun x => by rw [hH x]; rfl
  have hav : ∀ s, avg T.depth.bathymetry s = H := fun s => by simp only [avg, hv]; ring
  unfold pressure huDiv
  simp only [hu, he, if_true, bndLoop_eq, totalH_linear T hlin, hav, hv]
  have e1 : ∀ x, -(T.g * (eta (.cell x)).v * div uv (.cell x)) =
      T.g * ((∑ i, (eta (.cell x)).g i * (uv i (.cell x)).v) - div (fun i => eta * uv i) (.cell x)) := fun x => by
    simp only [div, Pi.mul_apply, Jet.mul_g, Fin.sum_univ_two]; ring
  have e2 : ∀ x, -∑ i, (eta (.cell x)).g i * (H * (uv i (.cell x)).v) =
      -H * ∑ i, (eta (.cell x)).g i * (uv i (.cell x)).v := fun x => by
    simp only [Fin.sum_univ_two]; ring
  have e3 : ∀ s, facetLoss T.g H uv eta s =
      H * (T.g * (avg eta s + Real.sqrt (H / T.g) * jumpV uv s) * jumpV uv s) +
      T.g * (∑ i, jumpN eta s i * (H * (avg (uv i) s + Real.sqrt (T.g / H) * jumpN eta s i))) -
      H * T.g * jumpV (fun i => eta * uv i) s := fun s => by
    have hs := hunit.1 s
    simp only [Fin.sum_univ_two] at hs
    simp only [facetLoss, avg, jumpV, jumpN, hflat s, Pi.mul_apply, Jet.mul_v, Fin.sum_univ_two]
    linear_combination -(T.g * H * Real.sqrt (T.g / H) * ((eta (.plus s)).v - (eta (.minus s)).v) ^ 2) * hs
  have e4 : ∀ b, T.g * H * (headBnd T bc uv eta etaOld (m.marker b) b - (eta (.bnd b)).v) *
        (∑ i, (uv i (.bnd b)).v * m.nb b i) +
        T.g * volFlux T bc uv eta uvOld etaOld (m.marker b) b * (eta (.bnd b)).v =
      H * (T.g * headBnd T bc uv eta etaOld (m.marker b) b * normalAt uv b) +
      T.g * (volFlux T bc uv eta uvOld etaOld (m.marker b) b * (eta (.bnd b)).v) -
      H * T.g * normalAt (fun i => eta * uv i) b := fun b => by
    simp only [normalAt, Pi.mul_apply, Jet.mul_v, Fin.sum_univ_two]; ring
  simp only [e1, e2, e3, e4]
  rw [dx_smul, dx_sub, dx_smul, dS_sub, dS_add, dS_smul, dS_smul, dS_smul, dB_sub, dB_add, dB_smul, dB_smul, dB_smul, hd]
  ring

/-- C78: between walls only the jumps at facets and the flow against the walls take energy. -/
theorem C78_identity (T : Term m) (bc : ℕ → Option (Funcs m)) (uv : Vc m) (eta : Sc m) (uvOld : Vc m) (etaOld : Sc m)
    (H : ℝ) (hlin : T.depth.nonlinear = false) (hH : ∀ x, T.depth.bathymetry x = Jet.const H)
    (hu : T.uDg = true) (he : T.etaDg = true) (hflat : m.Flat) (hunit : m.UnitNormals)
    (hb : ∀ k ∈ m.markers, IsClosed (bc k)) (hd : DivExact m fun i => eta * uv i) :
    H * pressure T bc uv eta etaOld uv + T.g * huDiv T bc uv eta uvOld etaOld eta =
      -(m.dS fun s => facetLoss T.g H uv eta s) -
      ∑ b, m.wB b * (T.g * H * Real.sqrt (H / T.g) * (∑ i, (uv i (.bnd b)).v * m.nb b i) ^ 2) := by
  have hop : ∀ b, openFuncs (bc (m.marker b)) = none := fun b => openFuncs_closed (hb _ (m.marker_mem b))
  have hv : ∀ x, (T.depth.bathymetry x).v = H := fun x => by rw [hH x]; rfl
  rw [C78_general T bc uv eta uvOld etaOld H hlin hH hu he hflat hunit hd]
  congr 1
  refine dB_congr fun b => ?_
  simp only [headBnd, volFlux, hop, totalH_linear T hlin, hv, normalAt]
  ring

/-- C78: the energy cannot grow. -/
theorem C78_bound (T : Term m) (bc : ℕ → Option (Funcs m)) (uv : Vc m) (eta : Sc m) (uvOld : Vc m) (etaOld : Sc m)
    (H : ℝ) (hlin : T.depth.nonlinear = false) (hH : ∀ x, T.depth.bathymetry x = Jet.const H)
    (hu : T.uDg = true) (he : T.etaDg = true) (hflat : m.Flat) (hunit : m.UnitNormals)
    (hb : ∀ k ∈ m.markers, IsClosed (bc k)) (hd : DivExact m fun i => eta * uv i) (hg : 0 < T.g) (h0 : 0 < H) :
    H * pressure T bc uv eta etaOld uv + T.g * huDiv T bc uv eta uvOld etaOld eta ≤ 0 := by
  rw [C78_identity T bc uv eta uvOld etaOld H hlin hH hu he hflat hunit hb hd]
  have h1 : 0 ≤ m.dS fun s => facetLoss T.g H uv eta s := dS_nonneg fun s => by unfold facetLoss; positivity
  have h2 : 0 ≤ ∑ b, m.wB b * (T.g * H * Real.sqrt (H / T.g) * (∑ i, (uv i (.bnd b)).v * m.nb b i) ^ 2) :=
    dB_nonneg fun b => by positivity
  linarith

/-- C78: with a continuous elevation space (dg-cg) the exchange of energy between walls is exact, on every mesh, with every
quadrature and every depth, in the nonlinear equations too: `H` is the depth of the old elevation. -/
theorem C78_dgcg (T : Term m) (bc : ℕ → Option (Funcs m)) (uv : Vc m) (eta : Sc m) (uvOld : Vc m) (etaOld : Sc m)
    (hu : T.uDg = true) (he : T.etaDg = false) (hb : ∀ k ∈ m.markers, IsClosed (bc k)) :
    pressure T bc uv eta etaOld (fun i x => T.depth.total x (etaOld x) * uv i x) +
      T.g * huDiv T bc uv eta uvOld etaOld eta = 0 := by
  have hop : ∀ b, openFuncs (bc (m.marker b)) = none := fun b => openFuncs_closed (hb _ (m.marker_mem b))
  unfold pressure huDiv
  simp only [hu, he, if_true, if_false, Bool.false_eq_true, bndLoop_eq, headCorr, volFlux, hop,
    zero_mul, mul_zero, Finset.sum_const_zero, add_zero]
  simp only [totalH, Jet.mul_v]
  rw [dx_smul, dx_neg]
  ring

/-- The hypotheses hold on the square for all velocities and elevations that are linear on each triangle. -/
example (a b c d e f : Quad) (ha : a.d = 0 ∧ a.e = 0 ∧ a.f = 0) (hb : b.d = 0 ∧ b.e = 0 ∧ b.f = 0)
    (hc : c.d = 0 ∧ c.e = 0 ∧ c.f = 0) (hd : d.d = 0 ∧ d.e = 0 ∧ d.f = 0) (he : e.d = 0 ∧ e.e = 0 ∧ e.f = 0)
    (hf : f.d = 0 ∧ f.e = 0 ∧ f.f = 0) :
    let uv : Vc square := ![squareField a b, squareField c d]
    let eta := squareField e f
    10 * pressure exTerm (fun _ => none) uv eta eta uv + 10 * huDiv exTerm (fun _ => none) uv eta uv eta eta ≤ 0 := by
  intro uv eta
  refine C78_bound exTerm (fun _ => none) uv eta uv eta 10 rfl (fun _ => rfl) rfl rfl square_flat square_unit
    (fun _ _ _ h => by simp at h) ?_ (by norm_num [exTerm]) (by norm_num)
  have : (fun i => eta * uv i) = fun i => squareField (![Quad.mulLin e a, Quad.mulLin e c] i)
      (![Quad.mulLin f b, Quad.mulLin f d] i) := by
    funext i
    fin_cases i
    · exact squareField_mul e f a b he hf ha hb
    · exact squareField_mul e f c d he hf hc hd
  rw [this]
  exact square_divExact _ _

/-- Flow of velocity 10 to the right with the elevation falling from 1 at the left to -1 at the right. -/
noncomputable def exFlow : Vc square := ![cst square 10, cst square 0]

/-- The elevation `1 - 2x`. -/
noncomputable def exSlope : Sc square := squareField ⟨1, -2, 0, 0, 0, 0⟩ ⟨1, -2, 0, 0, 0, 0⟩

/-- Elevation zero at the left and at the right. -/
noncomputable def exElev : ℕ → Option (Funcs square) := fun k => if k = 2 ∨ k = 3 then some [.elev fun _ => 0] else none

theorem elev_bnd (T : Term m) (k : ℕ) (b : m.B) (e x : ℝ) (u : Fin 2 → ℝ) :
    bndF T [.elev fun _ => e] k b x u = (e, u) := rfl

/-- C78: the head at a boundary with prescribed elevation `e` is the mean of inside and outside. -/
theorem C78_elev_head (T : Term m) (bc : ℕ → Option (Funcs m)) (uv : Vc m) (eta etaOld : Sc m) (k : ℕ) (b : m.B) (e : ℝ)
    (h : bc k = some [.elev fun _ => e]) : headBnd T bc uv eta etaOld k b = ((eta (.bnd b)).v + e) / 2 := by
  have ho : openFuncs (bc k) = some [.elev fun _ => e] := by rw [h]; rfl
  unfold headBnd
  rw [ho]
  simp only [headOpen, elev_bnd, sub_self, zero_mul, Finset.sum_const_zero, mul_zero, add_zero]
  ring

/-- C78: the head at a boundary with prescribed normal velocity `u` rises with the excess of the outward velocity inside;
for `u = 0` it is the head at a closed boundary. -/
theorem C78_un_head (T : Term m) (bc : ℕ → Option (Funcs m)) (uv : Vc m) (eta etaOld : Sc m) (k : ℕ) (b : m.B) (u : ℝ)
    (hunit : m.UnitNormals) (h : bc k = some [.un fun _ => u]) :
    headBnd T bc uv eta etaOld k b = (eta (.bnd b)).v +
      Real.sqrt (depthAt T (.bnd b) (etaOld (.bnd b)).v / T.g) * ((∑ i, (uv i (.bnd b)).v * m.nb b i) - u) ∧
    headBnd T (fun _ => none) uv eta etaOld k b = (eta (.bnd b)).v +
      Real.sqrt (depthAt T (.bnd b) (etaOld (.bnd b)).v / T.g) * ∑ i, (uv i (.bnd b)).v * m.nb b i := by
  have ho : openFuncs (bc k) = some [.un fun _ => u] := by rw [h]; rfl
  have hn := hunit.2.2 b
  have hb : bndF T [.un fun _ => u] k b (eta (.bnd b)).v (atB uv b) = ((eta (.bnd b)).v, fun i => u * m.nb b i) := rfl
  constructor
  · unfold headBnd
    rw [ho]
    simp only [headOpen, hb, totalH_v]
    rw [Fin.sum_univ_two] at hn ⊢
    rw [Fin.sum_univ_two]
    simp only [atB]
    linear_combination (-Real.sqrt (depthAt T (.bnd b) (etaOld (.bnd b)).v / T.g) * u) * hn
  · simp only [headBnd, openFuncs, imposeDynamic, totalH_v, normalAt]

/-- C78: the volume flux through a boundary with prescribed elevation in the linear equations. -/
theorem C78_elev_flux (T : Term m) (bc : ℕ → Option (Funcs m)) (uv : Vc m) (eta : Sc m) (uvOld : Vc m) (etaOld : Sc m)
    (k : ℕ) (b : m.B) (e : ℝ) (h : bc k = some [.elev fun _ => e]) (hlin : T.depth.nonlinear = false) :
    volFlux T bc uv eta uvOld etaOld k b = (T.depth.bathymetry (.bnd b)).v * ((∑ i, (uv i (.bnd b)).v * m.nb b i) +
      Real.sqrt (T.g / (T.depth.bathymetry (.bnd b)).v) * ((eta (.bnd b)).v - e)) := by
  have ho : openFuncs (bc k) = some [.elev fun _ => e] := by rw [h]; rfl
  unfold volFlux
  rw [ho]
  simp only [fluxOpen, elev_bnd, totalH_v, depthAt_linear T hlin]
  have : (1 / 2 * ((T.depth.bathymetry (.bnd b)).v + (T.depth.bathymetry (.bnd b)).v) : ℝ) =
      (T.depth.bathymetry (.bnd b)).v := by ring
  rw [this]
  simp only [Fin.sum_univ_two, atB]
  ring

/-- C78 (violated): boundaries that hold the elevation at zero can add energy. -/
theorem C78_open_violated :
    ¬ (10 * pressure exTerm exElev exFlow exSlope exSlope exFlow +
      10 * huDiv exTerm exElev exFlow exSlope exFlow exSlope exSlope ≤ 0) := by
  have hd : DivExact square fun i => exSlope * exFlow i := by
    have : (fun i => exSlope * exFlow i) = fun i => squareField (![⟨10, -20, 0, 0, 0, 0⟩, ⟨0, 0, 0, 0, 0, 0⟩] i)
        (![⟨10, -20, 0, 0, 0, 0⟩, ⟨0, 0, 0, 0, 0, 0⟩] i) := by
      funext i
      fin_cases i
      · change exSlope * cst square 10 = _
        rw [squareField_cst, exSlope, squareField_mul _ _ _ _ (by simp) (by simp) (by simp) (by simp)]
        simp [Quad.mulLin]
        norm_num
      · change exSlope * cst square 0 = _
        rw [squareField_cst, exSlope, squareField_mul _ _ _ _ (by simp) (by simp) (by simp) (by simp)]
        simp [Quad.mulLin]
    rw [this]
    exact square_divExact _ _
  have h := C78_general exTerm exElev exFlow exSlope exFlow exSlope 10 rfl (fun _ => rfl) rfl rfl square_flat square_unit hd
  have hg : exTerm.g = 10 := rfl
  rw [hg] at h
  rw [h]
  have h1 : (square.dS fun s => facetLoss 10 10 exFlow exSlope s) = 0 := by
    rw [← dS_zero (m := square)]
    refine dS_congr fun s => ?_
    have a : (exSlope (.plus s)).v = (exSlope (.minus s)).v := by cases s <;> rfl
    have b : ∀ i, (exFlow i (.plus s)).v = (exFlow i (.minus s)).v := fun i => by fin_cases i <;> rfl
    simp [facetLoss, a, b]
  rw [h1]
  have h2 : ∀ b : SqB, (let un := ∑ i, (exFlow i (.bnd b)).v * square.nb b i
        let head := headBnd exTerm exElev exFlow exSlope exSlope (square.marker b) b
        let flux := volFlux exTerm exElev exFlow exSlope exFlow exSlope (square.marker b) b
        (10 : ℝ) * 10 * (head - (exSlope (.bnd b)).v) * un + 10 * flux * (exSlope (.bnd b)).v) =
      match b with
      | .l0 | .l1 | .l2 | .r0 | .r1 | .r2 => -400
      | _ => 0 := by
    have hq : Real.sqrt (10 / 10 : ℝ) = 1 := by norm_num
    have hu : ∀ b : SqB, (∑ i, (exFlow i (.bnd b)).v * square.nb b i) = 10 * sqNx b := by
      intro b
      rw [Fin.sum_univ_two]
      change (10 : ℝ) * sqNx b + 0 * sqNy b = _
      ring
    have open_ : ∀ b : square.B, square.marker b = 2 ∨ square.marker b = 3 →
        headBnd exTerm exElev exFlow exSlope exSlope (square.marker b) b = (exSlope (.bnd b)).v / 2 ∧
        volFlux exTerm exElev exFlow exSlope exFlow exSlope (square.marker b) b =
          10 * (10 * sqNx b + (exSlope (.bnd b)).v) := by
      intro b hb
      have ho : exElev (square.marker b) = some [.elev fun _ => 0] := by simp only [exElev, if_pos hb]
      constructor
      · rw [C78_elev_head exTerm exElev exFlow exSlope exSlope _ b 0 ho, add_zero]
      · rw [C78_elev_flux exTerm exElev exFlow exSlope exFlow exSlope _ b 0 ho rfl, hu b]
        have : (exTerm.depth.bathymetry (.bnd b)).v = 10 := rfl
        rw [this, hg, hq]
        ring
    have closed_ : ∀ b : square.B, ¬ (square.marker b = 2 ∨ square.marker b = 3) → sqNx b = 0 →
        headBnd exTerm exElev exFlow exSlope exSlope (square.marker b) b = (exSlope (.bnd b)).v ∧
        volFlux exTerm exElev exFlow exSlope exFlow exSlope (square.marker b) b = 0 := by
      intro b hb hx
      have ho : openFuncs (exElev (square.marker b)) = none := by
        simp only [exElev, if_neg hb]; rfl
      constructor
      · unfold headBnd
        rw [ho]
        have : normalAt exFlow b = 0 := by rw [normalAt, hu b, hx, mul_zero]
        simp [this]
      · unfold volFlux
        rw [ho]
    intro b
    simp only [hu]
    cases b with
    | b0 => obtain ⟨h1, h2⟩ := closed_ SqB.b0 (by simp [square, sqMarker]) rfl; simp only [h1, h2, sqNx]; norm_num
    | b1 => obtain ⟨h1, h2⟩ := closed_ SqB.b1 (by simp [square, sqMarker]) rfl; simp only [h1, h2, sqNx]; norm_num
    | b2 => obtain ⟨h1, h2⟩ := closed_ SqB.b2 (by simp [square, sqMarker]) rfl; simp only [h1, h2, sqNx]; norm_num
    | t0 => obtain ⟨h1, h2⟩ := closed_ SqB.t0 (by simp [square, sqMarker]) rfl; simp only [h1, h2, sqNx]; norm_num
    | t1 => obtain ⟨h1, h2⟩ := closed_ SqB.t1 (by simp [square, sqMarker]) rfl; simp only [h1, h2, sqNx]; norm_num
    | t2 => obtain ⟨h1, h2⟩ := closed_ SqB.t2 (by simp [square, sqMarker]) rfl; simp only [h1, h2, sqNx]; norm_num
    | l0 => obtain ⟨h1, h2⟩ := open_ SqB.l0 (by simp [square, sqMarker])
            simp only [h1, h2]; simp only [sqNx, exSlope, squareField, Quad.jet]; norm_num
    | l1 => obtain ⟨h1, h2⟩ := open_ SqB.l1 (by simp [square, sqMarker])
            simp only [h1, h2]; simp only [sqNx, exSlope, squareField, Quad.jet]; norm_num
    | l2 => obtain ⟨h1, h2⟩ := open_ SqB.l2 (by simp [square, sqMarker])
            simp only [h1, h2]; simp only [sqNx, exSlope, squareField, Quad.jet]; norm_num
    | r0 => obtain ⟨h1, h2⟩ := open_ SqB.r0 (by simp [square, sqMarker])
            simp only [h1, h2]; simp only [sqNx, exSlope, squareField, Quad.jet]; norm_num
    | r1 => obtain ⟨h1, h2⟩ := open_ SqB.r1 (by simp [square, sqMarker])
            simp only [h1, h2]; simp only [sqNx, exSlope, squareField, Quad.jet]; norm_num
    | r2 => obtain ⟨h1, h2⟩ := open_ SqB.r2 (by simp [square, sqMarker])
            simp only [h1, h2]; simp only [sqNx, exSlope, squareField, Quad.jet]; norm_num
  have h3 := sum_sqB fun b => sqWB b * (let un := ∑ i, (exFlow i (.bnd b)).v * square.nb b i
        let head := headBnd exTerm exElev exFlow exSlope exSlope (square.marker b) b
        let flux := volFlux exTerm exElev exFlow exSlope exFlow exSlope (square.marker b) b
        (10 : ℝ) * 10 * (head - (exSlope (.bnd b)).v) * un + 10 * flux * (exSlope (.bnd b)).v)
  simp only [h2] at h3
  change ¬ (-0 - (∑ b : SqB, sqWB b * _) ≤ 0)
  simp only [h2]
  rw [h3]
  norm_num [sqWB]

end Verif.Swe
