import Verif.Morph.Model
import Verif.Tracer2.Props4
import Verif.Swe.Model
import Mathlib.Tactic.FieldSimp

/-!
C84: sediment is exchanged between water and bed without loss.
-/

namespace Verif.Morph

open Verif.Dg Verif.Tracer2 Verif.Sediment

variable {m : Mesh 2}

/-- Total of a field. -/
def total (f : Sc m) : ℝ := ∑ x, m.wC x * (f (.cell x)).v

/-- Suspended sediment leaving the domain per time with the flow (`outFlux` of the tracer equation). -/
noncomputable def flowOut (T : Term m) (F : Flow m) (u : Vc m) (bc : ℕ → Option (BFuncs m)) (c : Sc m) : ℝ :=
  ∑ b, m.wB b * outFlux T F u (bc (m.marker b)) c (m.marker b) b

/-- Bedload leaving through the boundaries that have an entry and are not closed. -/
noncomputable def bedOut (o : Opts) (q : Vc m) : ℝ :=
  ∑ b, m.wB b * (match o.swe (m.marker b) with
    | none => 0
    | some l => if noContr l = some true then 0 else (q 0 (.bnd b)).v * m.nb b 0 + (q 1 (.bnd b)).v * m.nb b 1)

/-- Sediment that settles per time if the depth is computed with the bed `h`. -/
noncomputable def settling (D : Depth m) (h dep elev c : Sc m) : ℝ :=
  ∑ x, m.wC x * ((dep (.cell x)).v * (c (.cell x)).v
    / (({ D with bathymetry := h } : Depth m).total (.cell x) (elev (.cell x))).v)

theorem total_eq (f : Sc m) : (m.dx fun x => (f (.cell x)).v * (cst m 1 (.cell x)).v) = total f := by
  simp [Mesh.dx, total]

theorem bedload_total (o : Opts) (q : Vc m) : exnerBedload o q (cst m 1) = o.fac * bedOut o q := by
  unfold exnerBedload bedOut
  have h : (m.dx fun x => o.fac * (q 0 (.cell x)).v * (cst m 1 (.cell x)).g 0
    + o.fac * (q 1 (.cell x)).v * (cst m 1 (.cell x)).g 1) = 0 := by
    rw [← dx_zero (m := m)]; exact dx_congr fun x => by simp
  dsimp only
  rw [h, add_zero, bndLoop_eq, Finset.mul_sum, ← Finset.sum_neg_distrib]
  refine Finset.sum_congr rfl fun b _ => ?_
  cases o.swe (m.marker b) with
  | none => simp
  | some l =>
    by_cases hl : noContr l = some true
    · simp [hl]
    · simp only [hl, if_false, cst_apply, Jet.const_v]; ring

theorem slide_total (K sigma h : Sc m) (hflat : m.Flat) : exnerSlide K sigma h (cst m 1) = 0 := by
  have hj : ∀ s i, jumpN (cst m 1) s i = 0 := fun s i => by simp [jumpN, hflat s i]
  have ha : ∀ s i, avgFlux K (cst m 1) s i = 0 := fun s i => by simp [avgFlux]
  simp [exnerSlide, hj, ha, Mesh.dx, Mesh.dS]

theorem deposition_total (D : Depth m) (h dep elev c : Sc m) :
    deposition (withBed D h) dep elev c (cst m 1) = -settling D h dep elev c := by
  unfold deposition settling withBed Mesh.dx
  rw [← Finset.sum_neg_distrib]
  exact Finset.sum_congr rfl fun x _ => by simp only [cst_apply, Jet.const_v]; ring

theorem source_total (o : Opts) (D : Depth m) (h elev c : Sc m) (k : Coef m) (hc : o.cons = true) :
    exnerSource o (withBed D h) k elev c (cst m 1) = o.fac * (total k.ero - settling D h k.dep elev c) := by
  unfold exnerSource settling total withBed Mesh.dx
  rw [← Finset.sum_sub_distrib, Finset.mul_sum]
  exact Finset.sum_congr rfl fun x _ => by simp only [cst_apply, Jet.const_v, hc, if_true]; ring

/-- No diffusive flux is prescribed or passes the boundary. -/
def NoDiffusiveFlux (bc : ℕ → Option (BFuncs m)) : Prop :=
  ∀ j f, bc j = some f → f.diffFlux = some fun _ => 0

theorem diffusion_total (T : Term m) (F : Flow m) (mu : Option (Sc m)) (bc : ℕ → Option (BFuncs m)) (c : Sc m)
    (hflat : m.Flat) (hmu : mu = none ∨ NoDiffusiveFlux bc) : diffusion T F mu bc c (cst m 1) = 0 := by
  cases mu with
  | none => rfl
  | some mu =>
    have hbc : NoDiffusiveFlux bc := hmu.resolve_left (by simp)
    rw [C75_mass T F mu bc c hflat fun j f hf => ⟨_, hbc j f hf⟩]
    refine Finset.sum_eq_zero fun b _ => ?_
    cases hf : bc (m.marker b) with
    | none => simp
    | some f => simp [hbc _ f hf]

/-- C84: budget of a step in the conservative form. Sediment in the water (`total c`) and in the bed
(`-total h` times `1/fac = (1-porosity)/morfac`) change together by what passes the open boundaries and by a defect:
the same deposition divided by two depths, that before and that after the change of the bed. -/
theorem C84_budget (o : Opts) (T : Term m) (k : Coef m) (mu : Option (Sc m)) (bc : ℕ → Option (BFuncs m))
    (V W : Set (Sc m)) (dt theta : ℝ) (F1 F0 : Flow m) (u1 u0 : Vc m) (c1 c0 h1 h0 : Sc m)
    (hs : Step o T k mu bc V W dt theta theta F1 F0 c1 c0 h1 h0)
    (hV : cst m 1 ∈ V) (hW : cst m 1 ∈ W) (hc : o.cons = true) (hsus : o.suspended = true) (hfac : o.fac ≠ 0)
    (hflat : m.Flat) (hdg : T.dg = true) (hu1 : F1.uv = some u1) (hu0 : F0.uv = some u0)
    (hmu : mu = none ∨ NoDiffusiveFlux bc) :
    (total c1 - total h1 / o.fac) - (total c0 - total h0 / o.fac) =
      -dt * (theta * (flowOut { T with depth := { T.depth with bathymetry := h0 } } F1 u1 bc c1
            + if o.useBedload then bedOut o (k.bedload h1) else 0)
        + (1 - theta) * (flowOut { T with depth := { T.depth with bathymetry := h0 } } F0 u0 bc c0
            + if o.useBedload then bedOut o (k.bedload h0) else 0))
      + dt * (theta * (settling T.depth h1 k.dep F1.elev c1 - settling T.depth h0 k.dep F1.elev c1)
        + (1 - theta) * (settling T.depth h1 k.dep F0.elev c0 - settling T.depth h0 k.dep F0.elev c0)) := by
  have e1 := hs.sediment _ hV
  have e2 := hs.bed _ hW
  have hero : ∀ elev, erosion (withBed T.depth h0) true k.ero elev (cst m 1) = total k.ero := fun elev => by
    simp [erosion, total, Mesh.dx]
  have hb : ∀ q : Vc m, (if o.useBedload then exnerBedload o q (cst m 1) else 0)
      = o.fac * (if o.useBedload then bedOut o q else 0) := fun q => by
    by_cases h : o.useBedload = true
    · simp [h, bedload_total]
    · simp [h]
  have hsl : ∀ h : Sc m, (if o.useSlide then exnerSlide (k.slide h) k.sigma h (cst m 1) else 0) = 0 := fun h => by
    simp [slide_total _ _ _ hflat]
  simp only [total_eq, sedimentResidual, hc, if_true, deposition_total, hero,
    diffusion_total _ _ mu bc _ hflat hmu] at e1
  rw [C74_mass _ F1 bc u1 c1 hu1 (by exact hdg) hflat, C74_mass _ F0 bc u0 c0 hu0 (by exact hdg) hflat] at e1
  simp only [total_eq, exnerResidual, hsus, if_true, source_total _ _ _ _ _ _ hc, hb, hsl] at e2
  have e3 : total h1 / o.fac - total h0 / o.fac = dt * (theta * (total k.ero - settling T.depth h1 k.dep F1.elev c1
      + if o.useBedload then bedOut o (k.bedload h1) else 0) + (1 - theta) * (total k.ero
      - settling T.depth h1 k.dep F0.elev c0 + if o.useBedload then bedOut o (k.bedload h0) else 0)) := by
    rw [← sub_div, e2]
    field_simp
    ring
  simp only [withBed] at e1
  unfold flowOut
  linear_combination e1 - e3

/-- Without suspended sediment the bed changes by the bedload through the open boundaries only; the slide
moves sediment inside the domain. -/
theorem C84_bed (o : Opts) (D : Depth m) (k : Coef m) (W : Set (Sc m)) (dt theta : ℝ)
    (elev1 elev0 c1 c0 h1 h0 : Sc m)
    (hs : Theta W dt theta h1 h0 (exnerResidual o D k elev1 c1 h1) (exnerResidual o D k elev0 c0 h0))
    (hW : cst m 1 ∈ W) (hsus : o.suspended = false) (hflat : m.Flat) :
    total h1 - total h0 = if o.useBedload then
      dt * o.fac * (theta * bedOut o (k.bedload h1) + (1 - theta) * bedOut o (k.bedload h0)) else 0 := by
  have e := hs _ hW
  simp only [total_eq, exnerResidual, hsus, slide_total _ _ _ hflat, bedload_total, Bool.false_eq_true, if_false,
    ite_self, add_zero, zero_add] at e
  rw [e]
  by_cases h : o.useBedload = true
  · simp only [h, if_true]; ring
  · simp [h]

/-- For a continuous bed the slide acts on the slopes only, tested with the bed itself: with the coefficient
of one sign of C47 (`K ≤ 0`) it lowers the mean square of the bed level. -/
theorem C84_slide (K sigma h : Sc m) (hh : ∀ s i, jumpN h s i = 0) :
    exnerSlide K sigma h h = ∑ x, m.wC x * ((K (.cell x)).v * ∑ i, (h (.cell x)).g i ^ 2) := by
  simp only [exnerSlide, hh, mul_zero, zero_mul, Finset.sum_const_zero, neg_zero, Mesh.dS, add_zero, Mesh.dx]
  rw [← Finset.sum_neg_distrib]
  refine Finset.sum_congr rfl fun x _ => ?_
  rw [Finset.mul_sum, Finset.mul_sum, Finset.mul_sum, ← Finset.sum_neg_distrib]
  exact Finset.sum_congr rfl fun i _ => by ring

/-! ### Size of the defect -/

/-- C84: the defect is small if the bed changes little: at most the relative change of the depth times what settles. -/
theorem C84_defect_bound (D : Depth m) (dep elev c h1 h0 : Sc m) (delta hmin : ℝ) (hmin0 : 0 < hmin)
    (hd : ∀ x, 0 ≤ (dep (.cell x)).v) (hcn : ∀ x, 0 ≤ (c (.cell x)).v)
    (hH0 : ∀ x, 0 < (({ D with bathymetry := h0 } : Depth m).total (.cell x) (elev (.cell x))).v)
    (hH1 : ∀ x, hmin ≤ (({ D with bathymetry := h1 } : Depth m).total (.cell x) (elev (.cell x))).v)
    (hdelta : ∀ x, |(({ D with bathymetry := h1 } : Depth m).total (.cell x) (elev (.cell x))).v
      - (({ D with bathymetry := h0 } : Depth m).total (.cell x) (elev (.cell x))).v| ≤ delta) :
    |settling D h1 dep elev c - settling D h0 dep elev c| ≤ delta / hmin * settling D h0 dep elev c := by
  unfold settling
  rw [← Finset.sum_sub_distrib, Finset.mul_sum]
  refine (Finset.abs_sum_le_sum_abs _ _).trans (Finset.sum_le_sum fun x _ => ?_)
  have a0 := hH0 x
  have a1 := hH1 x
  have ad := hdelta x
  generalize (({ D with bathymetry := h1 } : Depth m).total (.cell x) (elev (.cell x))).v = H1 at *
  generalize (({ D with bathymetry := h0 } : Depth m).total (.cell x) (elev (.cell x))).v = H0 at *
  have p1 : 0 < H1 := lt_of_lt_of_le hmin0 a1
  have hp : 0 ≤ m.wC x * ((dep (.cell x)).v * (c (.cell x)).v / H0) :=
    mul_nonneg (m.wC_nonneg x) (div_nonneg (mul_nonneg (hd x) (hcn x)) a0.le)
  have e : m.wC x * ((dep (.cell x)).v * (c (.cell x)).v / H1) - m.wC x * ((dep (.cell x)).v * (c (.cell x)).v / H0)
      = -((H1 - H0) / H1) * (m.wC x * ((dep (.cell x)).v * (c (.cell x)).v / H0)) := by
    field_simp
    ring
  rw [e, abs_mul, abs_of_nonneg hp, abs_neg, abs_div, abs_of_pos p1]
  refine mul_le_mul_of_nonneg_right ?_ hp
  exact div_le_div₀ ((abs_nonneg _).trans ad) ad hmin0 a1

/-! ### Conservation -/

/-- C84, the part that holds: with closed boundaries and no change of the total depth by the bed (or no deposition), the
sediment in water and bed is conserved, whatever the flow. -/
theorem C84_conserved_partial (o : Opts) (T : Term m) (k : Coef m) (mu : Option (Sc m))
    (V W : Set (Sc m)) (dt theta : ℝ) (F1 F0 : Flow m) (u1 u0 : Vc m) (c1 c0 h1 h0 : Sc m)
    (hs : Step o T k mu (fun _ => none) V W dt theta theta F1 F0 c1 c0 h1 h0)
    (hV : cst m 1 ∈ V) (hW : cst m 1 ∈ W) (hc : o.cons = true) (hsus : o.suspended = true) (hfac : o.fac ≠ 0)
    (hflat : m.Flat) (hdg : T.dg = true) (hu1 : F1.uv = some u1) (hu0 : F0.uv = some u0)
    (hq : ∀ b, qB F1 u1 b = 0 ∧ qB F0 u0 b = 0) (hswe : ∀ j l, o.swe j = some l → noContr l = some true)
    (hdep : (∀ x, (k.dep (.cell x)).v = 0) ∨
      ∀ x e, (({ T.depth with bathymetry := h1 } : Depth m).total (.cell x) e).v = (({ T.depth with bathymetry := h0 } : Depth m).total (.cell x) e).v) :
    total c1 - total h1 / o.fac = total c0 - total h0 / o.fac := by
  have h := C84_budget o T k mu (fun _ => none) V W dt theta F1 F0 u1 u0 c1 c0 h1 h0 hs hV hW hc hsus hfac hflat hdg
    hu1 hu0 (.inr fun _ _ h => by simp at h)
  have hb : ∀ q : Vc m, bedOut o q = 0 := fun q => Finset.sum_eq_zero fun b _ => by
    cases hl : o.swe (m.marker b) with
    | none => simp
    | some l => simp [hswe _ l hl]
  have hf1 : flowOut { T with depth := { T.depth with bathymetry := h0 } } F1 u1 (fun _ => none) c1 = 0 :=
    Finset.sum_eq_zero fun b _ => by simp [outFlux, (hq b).1]
  have hf0 : flowOut { T with depth := { T.depth with bathymetry := h0 } } F0 u0 (fun _ => none) c0 = 0 :=
    Finset.sum_eq_zero fun b _ => by simp [outFlux, (hq b).2]
  have hset : ∀ e c, settling T.depth h1 k.dep e c = settling T.depth h0 k.dep e c := fun e c => by
    rcases hdep with hd | hd
    · simp [settling, hd]
    · simp [settling, hd]
  rw [hf1, hf0] at h
  simp only [hb, hset, ite_self] at h
  linear_combination h

/-- The depth is the bed plus the elevation: an unbounded, nonlinear depth without wetting and drying. -/
noncomputable def plainDepth (m : Mesh 2) : Depth m := ⟨cst m 0, true, false, cst m 0⟩

/-- Still water with the surface at zero. -/
noncomputable def still (m : Mesh 2) : Flow m := { uv := some fun _ => cst m 0, elev := cst m 0, factor := cst m 1, lfFactor := 1 }

/-- Terms of the examples. -/
noncomputable def exTerm (m : Mesh 2) : Term m := ⟨plainDepth m, true, true, fun _ => 1, cst m 1, 1, true, 0⟩

/-- Deposition only. -/
noncomputable def exCoef (m : Mesh 2) : Coef m := ⟨cst m 0, cst m 1, fun _ _ => cst m 0, fun _ => cst m 0, cst m 0⟩

/-- Options of the examples: no bedload, factor one (no porosity, no acceleration). -/
noncomputable def exOpts (cons : Bool) : Opts := ⟨cons, true, false, false, 1, fun _ => none⟩

theorem still_advection (T : Term m) (bc : ℕ → Option (BFuncs m)) (c test : Sc m) (hbc : bc = fun _ => none) :
    advection T (still m) bc c test = 0 ∧ consAdvection T (still m) (some bc) c test = 0 := by
  subst hbc
  have hz : ∀ i x, (corrected (still m) (fun _ => cst m 0) i x) = Jet.const 0 := fun i x => by
    ext j
    · simp [corrected, still]
    · simp [corrected, still]
  have hz' : ∀ i, corrected (still m) (fun _ => cst m 0) i = cst m 0 := fun i => funext fun x => hz i x
  have hu : unAv (corrected (still m) fun _ => cst m 0) = fun _ => 0 := funext fun s => by
    simp [unAv, avg, hz]
  have huv : (still m).uv = some fun _ => cst m 0 := rfl
  constructor
  · simp only [advection, huv]
    simp [advBndFlux, hz, hz', hu, Mesh.dx, Mesh.dS, bndLoop_eq]
  · simp only [consAdvection, huv]
    simp [consBndFlux, consFlux, hz, hu, Mesh.dx, Mesh.dS, bndLoop_eq, consGamma,
      show (still m).uvP1 = none from rfl, show (still m).uvMag = none from rfl]

theorem total_cst (x : ℝ) : total (cst m x) = x * total (cst m 1) := by
  simp [total, Finset.mul_sum, mul_comm]

/-- C84 is violated in the conservative form: in still water over a flat bed (depth 1, uniform sediment, settling
velocity 1, time step 1, backward Euler) the water loses a quarter and the bed receives a half, because
deposition onto the bed is computed with the depth after the deposition. -/
theorem C84_depth_violated (m : Mesh 2) (hA : 0 < total (cst m 1)) :
    Step (exOpts true) (exTerm m) (exCoef m) none (fun _ => none) Set.univ Set.univ 1 1 1 (still m) (still m)
      (cst m (1 / 4)) (cst m (1 / 2)) (cst m (1 / 2)) (cst m 1) ∧
    total (cst m (1 / 4)) - total (cst m (1 / 2)) / (exOpts true).fac
      ≠ total (cst m (1 / 2)) - total (cst m 1) / (exOpts true).fac := by
  refine ⟨⟨fun test _ => ?_, fun test _ => ?_⟩, ?_⟩
  · rw [sedimentResidual, sedimentResidual]
    simp only [(still_advection _ _ _ _ rfl).1, (still_advection _ _ _ _ rfl).2, exOpts, if_true]
    simp only [diffusion, erosion, deposition, exTerm, exCoef, withBed, plainDepth, still, Depth.total,
      Depth.displacement, Mesh.dx]
    simp only [cst_apply, Jet.const_v, Jet.add_v, Jet.zero_v, if_true, Bool.false_eq_true, if_false, mul_zero,
      Finset.sum_const_zero, sub_self, zero_mul, add_zero, zero_add, one_mul, mul_one, div_one]
    rw [← Finset.sum_sub_distrib]
    exact Finset.sum_congr rfl fun x _ => by ring
  · simp only [exnerResidual, exOpts, if_true, Bool.false_eq_true, if_false, add_zero]
    simp only [exnerSource, exTerm, exCoef, withBed, plainDepth, still, Depth.total,
      Depth.displacement, Mesh.dx]
    simp only [cst_apply, Jet.const_v, Jet.add_v, Jet.zero_v, if_true, Bool.false_eq_true, if_false, sub_self,
      zero_mul, add_zero, one_mul, mul_one]
    rw [← Finset.sum_sub_distrib]
    exact Finset.sum_congr rfl fun x _ => by ring
  · simp only [exOpts, div_one]
    rw [total_cst (1 / 4), total_cst (1 / 2)]
    intro h
    linarith

/-! ### The form without depth -/

/-- Sediment in the water in the form for concentrations: concentration times depth. -/
noncomputable def content (D : Depth m) (h elev c : Sc m) : ℝ :=
  ∑ x, m.wC x * ((({ D with bathymetry := h } : Depth m).total (.cell x) (elev (.cell x))).v * (c (.cell x)).v)

/-- C84, the part that holds for concentrations: in still water of uniform depth `H` what the water column loses
(with the depth before the step) is what the bed gains. -/
theorem C84_still_partial (o : Opts) (T : Term m) (k : Coef m) (V W : Set (Sc m)) (dt theta H : ℝ)
    (c1 c0 h1 h0 : Sc m)
    (hs : Step o T k none (fun _ => none) V W dt theta theta (still m) (still m) c1 c0 h1 h0)
    (hV : cst m 1 ∈ V) (hW : cst m 1 ∈ W) (hc : o.cons = false) (hsus : o.suspended = true) (hfac : o.fac ≠ 0)
    (hb : o.useBedload = false) (hflat : m.Flat) (hH0 : H ≠ 0)
    (hH : ∀ x, (({ T.depth with bathymetry := h0 } : Depth m).total x (Jet.const 0)).v = H) :
    content T.depth h0 (cst m 0) c1 - total h1 / o.fac = content T.depth h0 (cst m 0) c0 - total h0 / o.fac := by
  have hH' : ∀ x, ((withBed T.depth h0).total x (Jet.const 0)).v = H := hH
  have e1 := hs.sediment _ hV
  have e2 := hs.bed _ hW
  simp only [sedimentResidual, (still_advection _ _ _ _ rfl).1, hc, Bool.false_eq_true, if_false, total_eq] at e1
  simp only [exnerResidual, hsus, hb, if_true, Bool.false_eq_true, if_false, slide_total _ _ _ hflat, total_eq,
    ite_self, add_zero] at e2
  have hcont : ∀ c : Sc m, content T.depth h0 (cst m 0) c = H * total c := fun c => by
    unfold content total
    rw [Finset.mul_sum]
    exact Finset.sum_congr rfl fun x _ => by
      rw [cst_apply]; refine (congrArg (fun y => m.wC x * (y * _)) (hH (.cell x))).trans ?_; ring
  have hero : erosion (withBed T.depth h0) false k.ero (still m).elev (cst m 1) = total k.ero / H := by
    unfold erosion total Mesh.dx
    rw [div_eq_mul_inv, Finset.sum_mul]
    exact Finset.sum_congr rfl fun x _ => by
      simp only [Bool.false_eq_true, if_false, still, cst_apply, hH', Jet.const_v]; ring
  have hdep : ∀ c : Sc m, deposition (withBed T.depth h0) k.dep (still m).elev c (cst m 1) =
      -(∑ x, m.wC x * ((k.dep (.cell x)).v * (c (.cell x)).v)) / H := fun c => by
    unfold deposition Mesh.dx
    rw [← Finset.sum_neg_distrib, div_eq_mul_inv, Finset.sum_mul]
    exact Finset.sum_congr rfl fun x _ => by simp only [still, cst_apply, hH', Jet.const_v]; ring
  have hsrc : ∀ c : Sc m, exnerSource o (withBed T.depth h1) k (still m).elev c (cst m 1) =
      o.fac * (total k.ero - ∑ x, m.wC x * ((k.dep (.cell x)).v * (c (.cell x)).v)) := fun c => by
    unfold exnerSource total Mesh.dx
    rw [← Finset.sum_sub_distrib, Finset.mul_sum]
    exact Finset.sum_congr rfl fun x _ => by
      simp only [cst_apply, Jet.const_v, hc, Bool.false_eq_true, if_false]; ring
  simp only [hero, hdep, diffusion, zero_add, add_zero] at e1
  simp only [hsrc] at e2
  rw [hcont, hcont]
  have e3 : total h1 / o.fac - total h0 / o.fac = dt * (theta * (total k.ero
      - ∑ x, m.wC x * ((k.dep (.cell x)).v * (c1 (.cell x)).v)) + (1 - theta) * (total k.ero
      - ∑ x, m.wC x * ((k.dep (.cell x)).v * (c0 (.cell x)).v))) := by
    rw [← sub_div, e2]; field_simp
  have e4 : H * total c1 - H * total c0 = dt * (theta * (total k.ero
      - ∑ x, m.wC x * ((k.dep (.cell x)).v * (c1 (.cell x)).v)) + (1 - theta) * (total k.ero
      - ∑ x, m.wC x * ((k.dep (.cell x)).v * (c0 (.cell x)).v))) := by
    rw [← mul_sub, e1]; field_simp; ring
  linear_combination e4 - e3

/-- C84 is violated for concentrations: with the depth after the step the water column lost more than the bed
gained (the concentration is not changed when the rising bed displaces water): still water of depth 1, settling
velocity 1, time step 1, backward Euler. -/
theorem C84_displaced_violated (m : Mesh 2) (hA : 0 < total (cst m 1)) :
    Step (exOpts false) (exTerm m) (exCoef m) none (fun _ => none) Set.univ Set.univ 1 1 1 (still m) (still m)
      (cst m (1 / 4)) (cst m (1 / 2)) (cst m (3 / 4)) (cst m 1) ∧
    content (plainDepth m) (cst m (3 / 4)) (cst m 0) (cst m (1 / 4)) - total (cst m (3 / 4)) / (exOpts false).fac
      ≠ content (plainDepth m) (cst m 1) (cst m 0) (cst m (1 / 2)) - total (cst m 1) / (exOpts false).fac := by
  refine ⟨⟨fun test _ => ?_, fun test _ => ?_⟩, ?_⟩
  · rw [sedimentResidual, sedimentResidual]
    simp only [(still_advection _ _ _ _ rfl).1, (still_advection _ _ _ _ rfl).2, exOpts, if_false, Bool.false_eq_true]
    simp only [diffusion, erosion, deposition, exTerm, exCoef, withBed, plainDepth, still, Depth.total,
      Depth.displacement, Mesh.dx]
    simp only [cst_apply, Jet.const_v, Jet.add_v, Jet.zero_v, if_true, Bool.false_eq_true, if_false, mul_zero,
      Finset.sum_const_zero, sub_self, zero_mul, add_zero, zero_add, one_mul, mul_one, div_one]
    rw [← Finset.sum_sub_distrib]
    exact Finset.sum_congr rfl fun x _ => by ring
  · simp only [exnerResidual, exOpts, if_true, Bool.false_eq_true, if_false, add_zero]
    simp only [exnerSource, exTerm, exCoef, withBed, plainDepth, still, Mesh.dx]
    simp only [cst_apply, Jet.const_v, Bool.false_eq_true, if_false, sub_self,
      zero_mul, add_zero, one_mul, mul_one]
    rw [← Finset.sum_sub_distrib]
    exact Finset.sum_congr rfl fun x _ => by ring
  · have hcont : ∀ h c, content (plainDepth m) (cst m h) (cst m 0) (cst m c) = h * c * total (cst m 1) := fun h c => by
      simp only [content, plainDepth, Depth.total, Depth.displacement, total, cst_apply, Jet.add_v,
        Jet.const_v, Jet.zero_v, if_true, Bool.false_eq_true, if_false, Finset.mul_sum]
      exact Finset.sum_congr rfl fun x _ => by ring
    simp only [exOpts, div_one, hcont]
    rw [total_cst (3 / 4)]
    intro h
    linarith

/-! ### Boundaries closed for water -/

/-- C84 is violated at a boundary that only has a drag coefficient: for the shallow water equations it is a closed
wall, but the bedload passes it. -/
theorem C84_drag_wall_violated (o : Opts) (q : Vc m) (x : ℝ) (hx : x ≠ 0)
    (ho : ∀ k, o.swe k = some [("drag", .scalar x)]) :
    Swe.imposeDynamic (m := m) (some [.drag fun _ => x]) = .ok false ∧
    bedOut o q = ∑ b, m.wB b * ((q 0 (.bnd b)).v * m.nb b 0 + (q 1 (.bnd b)).v * m.nb b 1) := by
  refine ⟨rfl, Finset.sum_congr rfl fun b _ => ?_⟩
  rw [ho]
  simp [noContr, hx]

/-- C84 is violated the other way at an open boundary whose drag coefficient is zero: water passes it (its elevation is
prescribed), but no bedload does. -/
theorem C84_drag_open_violated (o : Opts) (q : Vc m) (e : ℝ)
    (ho : ∀ k, o.swe k = some [("elev", .scalar e), ("drag", .scalar 0)]) :
    Swe.imposeDynamic (m := m) (some [.elev fun _ => e, .drag fun _ => 0]) = .ok true ∧ bedOut o q = 0 := by
  refine ⟨rfl, Finset.sum_eq_zero fun b _ => ?_⟩
  rw [ho]
  simp [noContr]

/-! ### Examples -/

theorem square_area : total (cst square 1) = 1 := by
  refine Eq.trans (sum_sqC fun _ => (1 / 6 : ℝ) * 1) ?_
  norm_num

/-- The steps of the violations are steps on the square, with the hypotheses of the budget: its defect is a quarter. -/
example : ∃ c1 c0 h1 h0, Step (exOpts true) (exTerm square) (exCoef square) none (fun _ => none) Set.univ Set.univ 1 1 1
      (still square) (still square) c1 c0 h1 h0 ∧ square.Flat ∧ (exTerm square).dg = true ∧
    (still square).uv = some (fun _ => cst square 0) ∧ (exOpts true).fac ≠ 0 ∧
    (total c1 - total h1 / (exOpts true).fac) - (total c0 - total h0 / (exOpts true).fac) = 1 / 4 := by
  refine ⟨_, _, _, _, (C84_depth_violated square (by rw [square_area]; norm_num)).1, square_flat, rfl, rfl,
    one_ne_zero, ?_⟩
  simp only [exOpts, div_one]
  rw [total_cst (1 / 4), total_cst (1 / 2), square_area]
  norm_num

/-- The step for concentrations has the hypotheses of `C84_still_partial` with depth 1. -/
example : ∃ c1 c0 h1 h0, Step (exOpts false) (exTerm square) (exCoef square) none (fun _ => none) Set.univ Set.univ 1 1 1
      (still square) (still square) c1 c0 h1 h0 ∧ c1 ≠ c0 ∧
    ∀ x, ((withBed (exTerm square).depth h0).total x (Jet.const 0)).v = 1 := by
  refine ⟨_, _, _, _, (C84_displaced_violated square (by rw [square_area]; norm_num)).1, ?_, fun x => ?_⟩
  · intro h
    have := congrArg Jet.v (congrFun h (.cell SqC.l0))
    norm_num at this
  · simp [withBed, exTerm, plainDepth, Depth.total, Depth.displacement]

/-- With no deposition (and no erosion) nothing changes: a step with the hypotheses of `C84_conserved_partial`. -/
example : Step (exOpts true) (exTerm square) { exCoef square with dep := cst square 0 } none (fun _ => none) Set.univ
      Set.univ 1 1 1 (still square) (still square) (cst square 1) (cst square 1) (cst square 1) (cst square 1) ∧
    (∀ b, qB (still square) (fun _ => cst square 0) b = 0) ∧
    ∀ j l, (exOpts true).swe j = some l → noContr l = some true := by
  refine ⟨⟨fun test _ => ?_, fun test _ => ?_⟩, fun b => ?_, fun j l h => by simp [exOpts] at h⟩
  · simp only [sedimentResidual, (still_advection _ _ _ _ rfl).1, (still_advection _ _ _ _ rfl).2]
    simp [exOpts, diffusion, erosion, deposition, exCoef, Mesh.dx]
  · simp [exnerResidual, exOpts, exnerSource, exCoef, Mesh.dx]
  · simp [qB, vel, still]

/-- The bound on the defect for bed levels 1 and 1/2. -/
example : |settling (plainDepth square) (cst square (1 / 2)) (cst square 1) (cst square 0) (cst square (1 / 4))
    - settling (plainDepth square) (cst square 1) (cst square 1) (cst square 0) (cst square (1 / 4))|
    ≤ (1 / 2) / (1 / 2) * settling (plainDepth square) (cst square 1) (cst square 1) (cst square 0)
      (cst square (1 / 4)) := by
  refine C84_defect_bound _ _ _ _ _ _ _ _ (by norm_num) (fun x => by simp) (fun x => by simp) (fun x => ?_) (fun x => ?_)
    fun x => ?_ <;> simp [plainDepth, Depth.total, Depth.displacement]
  norm_num

end Verif.Morph
