import Verif.Mass2.Model
import Verif.Tracer2.Props4
import Verif.Swe.Props

/-!
C124: what the check of the tracer mass can report.
-/

namespace Verif.Mass2

open Verif.Dg

variable {m : Mesh 2}

/-- C124: one step that changes the tracer by the form `A` and the depth by the form `B` of the two equations.
If the old depth is a test function of the tracer equation and the new tracer one of the
free surface equation, then the reported mass changes by the two forms for these test functions. -/
theorem C124_step (W : Swe.Term m) (eta eta' c c' : Sc m) (A B : Sc m → ℝ)
    (hA : m.dx (fun x => ((c' (.cell x)).v - (c (.cell x)).v) * (Swe.totalH W eta (.cell x)).v) =
      A (Swe.totalH W eta))
    (hB : m.dx (fun x => ((Swe.totalH W eta' (.cell x)).v - (Swe.totalH W eta (.cell x)).v) * (c' (.cell x)).v) = B c') :
    reported W (chooseCheck false) eta' c' - reported W (chooseCheck false) eta c =
      A (Swe.totalH W eta) + B c' := by
  rw [← hA, ← hB, ← dx_add]
  simp only [reported, chooseCheck, Bool.false_eq_true, if_false]
  rw [← Swe.dx_sub]
  exact dx_congr fun x => by ring

/-- The flux of tracer at an interior facet that the two equations disagree about, in the direction out of the plus side: the
jump of the tracer times the difference between the volume flux on the downstream side and the volume flux of the
free surface equation. -/
noncomputable def facetDefect (T : Tracer2.Term m) (W : Swe.Term m) (u : Vc m) (eta c : Sc m) (s : m.S) : ℝ :=
  let H := Swe.totalH W eta
  let inflow : ℝ := ∑ i, (u i (.plus s)).v * m.np s i
  let outflow : ℝ := ∑ i, (u i (.minus s)).v * m.np s i
  let sw := Tracer2.upwind T (Tracer2.unAv u s)
  ((c (.plus s)).v - (c (.minus s)).v) *
    (sw * ((H (.plus s)).v * inflow) + (1 - sw) * ((H (.minus s)).v * outflow) -
      (∑ i, m.np s i * (((H (.plus s)).v + (H (.minus s)).v) / 2 *
        (((u i (.plus s)).v + (u i (.minus s)).v) / 2 +
          Real.sqrt (W.g / (((H (.plus s)).v + (H (.minus s)).v) / 2)) *
            (((eta (.plus s)).v - (eta (.minus s)).v) * m.np s i)))))

/-- The Lax-Friedrichs part of the disagreement. -/
noncomputable def facetLf (T : Tracer2.Term m) (F : Tracer2.Flow m) (W : Swe.Term m) (u : Vc m) (eta c : Sc m)
    (s : m.S) : ℝ :=
  if T.lf then |Tracer2.unAv u s| / 2 * F.lfFactor *
    (((Swe.totalH W eta (.plus s)).v - (Swe.totalH W eta (.minus s)).v) * ((c (.plus s)).v - (c (.minus s)).v))
  else 0

/-- What leaves the domain through a boundary point: the tracer flux times the depth and the
volume flux times the tracer, less the product of both inside values that both equations count. -/
noncomputable def leaves (T : Tracer2.Term m) (F : Tracer2.Flow m) (bc : ℕ → Option (Tracer2.BFuncs m))
    (W : Swe.Term m) (bcW : ℕ → Option (Swe.Funcs m)) (u : Vc m) (eta c : Sc m) (b : m.B) : ℝ :=
  Tracer2.advBndFlux T F u bc c (m.marker b) b * (Swe.totalH W eta (.bnd b)).v +
    Swe.volFlux W bcW u eta u eta (m.marker b) b * (c (.bnd b)).v -
    (c (.bnd b)).v * (Swe.totalH W eta (.bnd b)).v * normalAt u b

/-- C124: the budget of the reported mass of a tracer in non-conservative form.  It changes by what passes
the boundary and by what the two equations disagree about at the interior facets. -/
theorem C124_budget (T : Tracer2.Term m) (F : Tracer2.Flow m) (bc : ℕ → Option (Tracer2.BFuncs m)) (W : Swe.Term m)
    (bcW : ℕ → Option (Swe.Funcs m)) (u : Vc m) (eta c : Sc m) (hu : F.uv = some u) (hf : F.factor = cst m 1)
    (hT : T.dg = true) (hW : W.uDg = true) (hE : W.etaDg = true) (hflat : m.Flat)
    (hdiv : DivExact m fun i => c * (Swe.totalH W eta * u i)) :
    massRate T F bc W bcW u eta c =
      m.dS (fun s => facetDefect T W u eta c s - facetLf T F W u eta c s) -
      ∑ b, m.wB b * leaves T F bc W bcW u eta c b := by
  have hc : Tracer2.corrected F u = u := by
    funext i x
    apply Jet.ext
    · simp [Tracer2.corrected, hf]
    · funext j; simp [Tracer2.corrected, hf]
  unfold massRate
  rw [Tracer2.advection_eq T F bc u c _ hu, hc, Swe.huDiv]
  simp only [hT, hW, hE, if_true, bndLoop_eq]
  unfold DivExact at hdiv
  have h1 : (m.dx fun x => div (fun i => u i * Swe.totalH W eta) (.cell x) * (c (.cell x)).v) =
      m.dx (fun x => div (fun i => c * (Swe.totalH W eta * u i)) (.cell x)) +
        m.dx (fun x => -∑ i, (c (.cell x)).g i * ((Swe.totalH W eta (.cell x)).v * (u i (.cell x)).v)) := by
    rw [← dx_add]
    refine dx_congr fun x => ?_
    simp only [div, Fin.sum_univ_two, Pi.mul_apply, Jet.mul_g, Jet.mul_v]
    ring
  have h2 : (m.dS fun s => facetDefect T W u eta c s - facetLf T F W u eta c s) =
      m.dS (fun s => jumpV (fun i => c * (Swe.totalH W eta * u i)) s) -
      m.dS (Tracer2.advFacet T u c (Swe.totalH W eta)) -
      (if T.lf = true then m.dS fun s => (1 / 2) * |Tracer2.unAv u s| * F.lfFactor *
        (jump (Swe.totalH W eta) s * jump c s) else 0) -
      m.dS (fun s => ∑ i, jumpN c s i * (avg (Swe.totalH W eta) s *
        (avg (u i) s + Real.sqrt (W.g / avg (Swe.totalH W eta) s) * jumpN eta s i))) := by
    have h3 : (if T.lf = true then m.dS fun s => (1 / 2) * |Tracer2.unAv u s| * F.lfFactor *
        (jump (Swe.totalH W eta) s * jump c s) else 0) = m.dS fun s => facetLf T F W u eta c s := by
      by_cases h : T.lf = true
      · rw [if_pos h]
        exact dS_congr fun s => by simp only [facetLf, h, if_true, jump]; ring
      · rw [if_neg h]
        simp only [facetLf, h, Bool.false_eq_true, if_false]
        exact dS_zero.symm
    rw [h3, ← Swe.dS_sub, ← Swe.dS_sub, ← Swe.dS_sub]
    refine dS_congr fun s => ?_
    have ha : avg (Swe.totalH W eta) s = ((Swe.totalH W eta (.plus s)).v + (Swe.totalH W eta (.minus s)).v) / 2 := by
      simp only [avg]; ring
    simp only [ha]
    generalize hr : Real.sqrt (W.g / (((Swe.totalH W eta (.plus s)).v + (Swe.totalH W eta (.minus s)).v) / 2)) = r
    simp only [facetDefect, hr, Tracer2.advFacet, jumpV, jumpN, avg, Fin.sum_univ_two, Pi.mul_apply, Jet.mul_v,
      hflat s]
    ring
  have h4 : (∑ b, m.wB b * leaves T F bc W bcW u eta c b) =
      (∑ b, m.wB b * (Tracer2.advBndFlux T F u bc c (m.marker b) b * (Swe.totalH W eta (.bnd b)).v)) +
      (∑ b, m.wB b * (Swe.volFlux W bcW u eta u eta (m.marker b) b * (c (.bnd b)).v)) -
      ∑ b, m.wB b * normalAt (fun i => c * (Swe.totalH W eta * u i)) b := by
    rw [← dB_add, ← Swe.dB_sub]
    refine dB_congr fun b => ?_
    simp only [leaves, normalAt, Fin.sum_univ_two, Pi.mul_apply, Jet.mul_v]
    ring
  rw [h1, h2, h4, hdiv]
  ring

/-- At a facet the two equations agree: the tracer has no jump, or depth, elevation and normal velocity have none. -/
def Agree (W : Swe.Term m) (u : Vc m) (eta c : Sc m) (s : m.S) : Prop :=
  (c (.plus s)).v = (c (.minus s)).v ∨
  (Swe.totalH W eta (.plus s)).v = (Swe.totalH W eta (.minus s)).v ∧ (eta (.plus s)).v = (eta (.minus s)).v ∧
    ∑ i, (u i (.plus s)).v * m.np s i = ∑ i, (u i (.minus s)).v * m.np s i

theorem defect_zero (T : Tracer2.Term m) (F : Tracer2.Flow m) (W : Swe.Term m) (u : Vc m) (eta c : Sc m) (s : m.S)
    (h : Agree W u eta c s) : facetDefect T W u eta c s - facetLf T F W u eta c s = 0 := by
  rcases h with h | ⟨h1, h2, h3⟩
  · simp [facetDefect, facetLf, h]
  · rw [Fin.sum_univ_two, Fin.sum_univ_two] at h3
    simp only [facetDefect, facetLf, h1, h2, sub_self, zero_mul, mul_zero, ite_self, sub_zero, add_zero,
      Fin.sum_univ_two]
    linear_combination ((c (.plus s)).v - (c (.minus s)).v) * (Swe.totalH W eta (.minus s)).v *
      (Tracer2.upwind T (Tracer2.unAv u s) - 1 / 2) * h3

/-- C124: with no conditions of either equation on the boundary (or nothing but `drag`) the reported mass stays constant
if the two equations agree at all facets, whatever the velocity at the boundary is. -/
theorem C124_conserved (T : Tracer2.Term m) (F : Tracer2.Flow m) (bc : ℕ → Option (Tracer2.BFuncs m)) (W : Swe.Term m)
    (bcW : ℕ → Option (Swe.Funcs m)) (u : Vc m) (eta c : Sc m) (hu : F.uv = some u) (hf : F.factor = cst m 1)
    (hT : T.dg = true) (hW : W.uDg = true) (hE : W.etaDg = true) (hflat : m.Flat)
    (hdiv : DivExact m fun i => c * (Swe.totalH W eta * u i))
    (hbc : ∀ b, bc (m.marker b) = none) (hbcW : ∀ b, Swe.IsClosed (bcW (m.marker b)))
    (h : ∀ s, Agree W u eta c s) : massRate T F bc W bcW u eta c = 0 := by
  rw [C124_budget T F bc W bcW u eta c hu hf hT hW hE hflat hdiv]
  have h1 : m.dS (fun s => facetDefect T W u eta c s - facetLf T F W u eta c s) = 0 := by
    rw [← dS_zero (m := m)]
    exact dS_congr fun s => defect_zero T F W u eta c s (h s)
  have h2 : ∀ b, leaves T F bc W bcW u eta c b = 0 := fun b => by
    simp only [leaves, Tracer2.advBndFlux, hbc b, Swe.volFlux, Swe.openFuncs_closed (hbcW b), normalAt,
      Fin.sum_univ_two]
    ring
  rw [h1]
  simp [h2]

/-- C124: in particular a continuous tracer keeps its mass in a closed basin, whatever the flow is. -/
theorem C124_continuous (T : Tracer2.Term m) (F : Tracer2.Flow m) (bc : ℕ → Option (Tracer2.BFuncs m))
    (W : Swe.Term m) (bcW : ℕ → Option (Swe.Funcs m)) (u : Vc m) (eta c : Sc m) (hu : F.uv = some u)
    (hf : F.factor = cst m 1) (hT : T.dg = true) (hW : W.uDg = true) (hE : W.etaDg = true) (hflat : m.Flat)
    (hdiv : DivExact m fun i => c * (Swe.totalH W eta * u i))
    (hbc : ∀ b, bc (m.marker b) = none) (hbcW : ∀ b, Swe.IsClosed (bcW (m.marker b)))
    (h : ∀ s, (c (.plus s)).v = (c (.minus s)).v) : massRate T F bc W bcW u eta c = 0 :=
  C124_conserved T F bc W bcW u eta c hu hf hT hW hE hflat hdiv hbc hbcW fun s => Or.inl (h s)

/-- C124: where a boundary of the tracer equation has no entry, the outflow of mass is the volume flux of the free surface
equation times the tracer inside. -/
theorem C124_outflow (T : Tracer2.Term m) (F : Tracer2.Flow m) (bc : ℕ → Option (Tracer2.BFuncs m)) (W : Swe.Term m)
    (bcW : ℕ → Option (Swe.Funcs m)) (u : Vc m) (eta c : Sc m) (b : m.B) (h : bc (m.marker b) = none) :
    leaves T F bc W bcW u eta c b = Swe.volFlux W bcW u eta u eta (m.marker b) b * (c (.bnd b)).v := by
  simp only [leaves, Tracer2.advBndFlux, h, normalAt, Fin.sum_univ_two]
  ring

/-- C124: where the boundary prescribes the tracer only and the water comes in, the inflow of mass is the prescribed
tracer times depth and velocity inside, corrected by the mismatch of the volume flux times the tracer inside. -/
theorem C124_inflow (T : Tracer2.Term m) (F : Tracer2.Flow m) (bc : ℕ → Option (Tracer2.BFuncs m)) (W : Swe.Term m)
    (bcW : ℕ → Option (Swe.Funcs m)) (u : Vc m) (eta c : Sc m) (b : m.B) (v : m.B → Jet 2)
    (h : bc (m.marker b) = some { value := some v }) (hin : normalAt u b < 0) :
    leaves T F bc W bcW u eta c b = (v b).v * ((Swe.totalH W eta (.bnd b)).v * normalAt u b) +
      (c (.bnd b)).v * (Swe.volFlux W bcW u eta u eta (m.marker b) b -
        (Swe.totalH W eta (.bnd b)).v * normalAt u b) := by
  have hs : Tracer2.upwind T (m.nb b 0 * (u 0 (.bnd b)).v + m.nb b 1 * (u 1 (.bnd b)).v) = 0 := by
    have : m.nb b 0 * (u 0 (.bnd b)).v + m.nb b 1 * (u 1 (.bnd b)).v = normalAt u b := by
      simp only [normalAt, Fin.sum_univ_two]; ring
    rw [this, Tracer2.upwind, sgn, if_neg (not_lt.2 hin.le), if_pos hin]; norm_num
  have ha : ∀ x : ℝ, 1 / 2 * (x + x) = x := fun x => by ring
  simp only [leaves, Tracer2.advBndFlux, h, Tracer2.bndFunctions, ha, hs, normalAt, Fin.sum_univ_two]
  ring

/-- C124: the conservative form reports the integral of the variable itself, so that C74 applies to the reported
mass: `consAdvection` for the test function one is its rate. -/
theorem C124_conservative (W : Swe.Term m) (eta eta' q q' : Sc m) (A : Sc m → ℝ)
    (hA : ∀ f : Sc m, m.dx (fun x => ((q' (.cell x)).v - (q (.cell x)).v) * (f (.cell x)).v) = A f) :
    reported W (chooseCheck true) eta' q' - reported W (chooseCheck true) eta q = A (cst m 1) := by
  rw [← hA]
  simp only [reported, chooseCheck, if_true]
  rw [← Swe.dx_sub]
  exact dx_congr fun x => by simp

/-- C124: the conservative form keeps the reported mass of every step in a basin without conditions. -/
theorem C124_conservative_closed (T : Tracer2.Term m) (F : Tracer2.Flow m) (W : Swe.Term m) (u : Vc m)
    (eta eta' q q' qs : Sc m) (dt : ℝ) (hu : F.uv = some u) (hdg : T.dg = true) (hflat : m.Flat)
    (hA : ∀ f : Sc m, m.dx (fun x => ((q' (.cell x)).v - (q (.cell x)).v) * (f (.cell x)).v) =
      dt * Tracer2.consAdvection T F none qs f) :
    reported W (chooseCheck true) eta' q' = reported W (chooseCheck true) eta q := by
  have h := C124_conservative W eta eta' q q' (fun f => dt * Tracer2.consAdvection T F none qs f) hA
  simp only [Tracer2.C74_no_conditions T F u qs hu hdg hflat, mul_zero] at h
  linarith

/-- C124: the weighted mass of a uniform tracer is the volume of water times its value. -/
theorem C124_uniform (W : Swe.Term m) (eta : Sc m) (k : ℝ) :
    reported W (chooseCheck false) eta (cst m k) = k * m.dx fun x => (Swe.totalH W eta (.cell x)).v := by
  simp only [reported, chooseCheck, Bool.false_eq_true, if_false, cst_apply, Jet.const_v]
  rw [← dx_smul]

/-- C124: diffusion of a tracer without jumps in water of a depth without jumps, in a basin without conditions for the
tracer, changes the reported mass at the rate of the product of the gradients. -/
theorem C124_diffusion (T : Tracer2.Term m) (F : Tracer2.Flow m) (bc : ℕ → Option (Tracer2.BFuncs m)) (mu c H : Sc m)
    (hflat : m.Flat) (hbc : ∀ b, bc (m.marker b) = none) (hc : ∀ s, (c (.plus s)).v = (c (.minus s)).v)
    (hH : ∀ s, (H (.plus s)).v = (H (.minus s)).v) :
    Tracer2.diffusion T F (some mu) bc c H =
      -m.dx fun x => ∑ i, (H (.cell x)).g i * ((mu (.cell x)).v * (c (.cell x)).g i) := by
  have h1 : ∀ s i, jumpN c s i = 0 := fun s i => by simp [jumpN, hc s, hflat s i]
  have h2 : ∀ s i, jumpN H s i = 0 := fun s i => by simp [jumpN, hH s, hflat s i]
  rw [Tracer2.diffusion_eq]
  simp only [h1, h2, Tracer2.diffBndFlux, hbc, mul_zero, zero_mul, Finset.sum_const_zero, sub_zero, dS_zero, ite_self,
    add_zero]

/-- C124: over a bottom and under a surface without slope diffusion keeps the reported mass of a tracer without
jumps. -/
theorem C124_diffusion_flat (T : Tracer2.Term m) (F : Tracer2.Flow m) (bc : ℕ → Option (Tracer2.BFuncs m))
    (mu c H : Sc m) (hflat : m.Flat) (hbc : ∀ b, bc (m.marker b) = none)
    (hc : ∀ s, (c (.plus s)).v = (c (.minus s)).v) (hH : ∀ s, (H (.plus s)).v = (H (.minus s)).v)
    (hg : ∀ x i, (H (.cell x)).g i = 0) : Tracer2.diffusion T F (some mu) bc c H = 0 := by
  rw [C124_diffusion T F bc mu c H hflat hbc hc hH]
  simp only [hg, zero_mul, Finset.sum_const_zero, dx_zero, neg_zero]

/-- C124: a source changes the reported mass by the integral of source times depth in the non-conservative form, and by
the same integral in the conservative form. -/
theorem C124_source (T : Tracer2.Term m) (W : Swe.Term m) (eta src : Sc m) (h : T.depth = W.depth) :
    Tracer2.source (some src) (Swe.totalH W eta) =
      (m.dx fun x => (src (.cell x)).v * (Swe.totalH W eta (.cell x)).v) ∧
    Tracer2.consSource T eta (some src) (cst m 1) =
      m.dx fun x => (src (.cell x)).v * (Swe.totalH W eta (.cell x)).v := by
  refine ⟨?_, ?_⟩
  · simp only [Tracer2.source]
    rw [dx_neg, neg_neg]
  · simp only [Tracer2.consSource, h]
    rw [dx_neg, neg_neg]
    exact dx_congr fun x => by simp only [Swe.totalH, cst_apply, Jet.const_v]; ring

/-! ### Examples and violations on the square -/

/-- Shallow water equations with depth 10 and gravity 10. -/
noncomputable def exW : Swe.Term square :=
  { Swe.exTerm with depth := ⟨cst square 10, true, false, cst square 0⟩, nonlinear := true }

/-- The same over a bottom that slopes in the first direction. -/
noncomputable def slopeW : Swe.Term square :=
  { exW with depth := ⟨squareField ⟨10, 1, 0, 0, 0, 0⟩ ⟨10, 1, 0, 0, 0, 0⟩, true, false, cst square 0⟩ }

/-- A flow with velocity `u` and elevation `eta`. -/
noncomputable def flowOf (u : Vc square) (eta : Sc square) : Tracer2.Flow square where
  uv := some u
  elev := eta
  factor := cst square 1
  lfFactor := 1

theorem exW_depth (eta : Sc square) : Swe.totalH exW eta = fun x => Jet.const 10 + eta x + 0 := by
  funext x
  simp [Swe.totalH, exW, Depth.total, Depth.displacement]

/-- The hypotheses of `C124_step` hold when the elevation rises by one and the tracer doubles. -/
example : reported exW (chooseCheck false) (cst square 1) (cst square 2) -
    reported exW (chooseCheck false) (cst square 0) (cst square 1) = 12 := by
  have hs : ∀ y : ℝ, (square.dx fun _ => y) = y := fun y => by
    refine (sum_sqC fun _ => (1 / 6 : ℝ) * y).trans ?_
    ring
  have h : ∀ (f : Sc square) (y : ℝ), (∀ x, (f (.cell x)).v = y) → square.dx (fun x => (f (.cell x)).v) = y :=
    fun f y hf => by rw [← hs y]; exact dx_congr hf
  rw [C124_step exW _ _ _ _ (fun f => square.dx fun x => (f (.cell x)).v) (fun f => square.dx fun x => (f (.cell x)).v)
    (dx_congr fun x => by simp; ring) (dx_congr fun x => by simp [exW_depth]),
    h _ 10 fun x => by simp [exW_depth], h _ 2 fun x => by simp]
  norm_num

/-- The hypotheses of `C124_continuous` hold for a linear tracer, a discontinuous linear velocity with flow through the
sides and a discontinuous elevation. -/
example : massRate Tracer2.exTerm (flowOf Tracer2.exU (Swe.twoLevels 1 (-1))) (fun _ => none) exW (fun _ => none)
    Tracer2.exU (Swe.twoLevels 1 (-1)) (squareField ⟨1, 1, 1, 0, 0, 0⟩ ⟨1, 1, 1, 0, 0, 0⟩) = 0 := by
  refine C124_continuous _ _ _ exW _ _ _ _ rfl rfl rfl rfl rfl square_flat ?_ (fun _ => rfl)
    (fun _ _ h => by cases h) ?_
  · have : (fun i => squareField ⟨1, 1, 1, 0, 0, 0⟩ ⟨1, 1, 1, 0, 0, 0⟩ *
        (Swe.totalH exW (Swe.twoLevels 1 (-1)) * Tracer2.exU i)) = fun i : Fin 2 =>
        squareField (Quad.mulLin ⟨1, 1, 1, 0, 0, 0⟩ (Quad.mulLin ⟨11, 0, 0, 0, 0, 0⟩ ⟨1, (i : ℝ), 2, 0, 0, 0⟩))
          (Quad.mulLin ⟨1, 1, 1, 0, 0, 0⟩ (Quad.mulLin ⟨9, 0, 0, 0, 0, 0⟩ ⟨-1, 1, (i : ℝ), 0, 0, 0⟩)) := by
      funext i
      have hh : Swe.totalH exW (Swe.twoLevels 1 (-1)) = squareField ⟨11, 0, 0, 0, 0, 0⟩ ⟨9, 0, 0, 0, 0, 0⟩ := by
        rw [exW_depth]
        funext x
        apply Jet.ext
        · rcases x with x | x | x | x <;> cases x <;> norm_num [Swe.twoLevels, squareField, Quad.jet]
        · funext j
          rcases x with x | x | x | x <;> cases x <;> fin_cases j <;> norm_num [Swe.twoLevels, squareField, Quad.jet]
      rw [hh, Tracer2.exU, squareField_mul _ _ _ _ ⟨rfl, rfl, rfl⟩ ⟨rfl, rfl, rfl⟩ ⟨rfl, rfl, rfl⟩ ⟨rfl, rfl, rfl⟩]
      exact squareField_mul _ _ _ _ ⟨rfl, rfl, rfl⟩ ⟨rfl, rfl, rfl⟩ ⟨by simp [Quad.mulLin], by simp [Quad.mulLin],
        by simp [Quad.mulLin]⟩ ⟨by simp [Quad.mulLin], by simp [Quad.mulLin], by simp [Quad.mulLin]⟩
    rw [this]
    exact square_divExact _ _
  · intro s
    cases s <;> norm_num [squareField, Quad.jet]

/-- C124 (violated): in a closed basin without velocity a step of the elevation between two cells makes the free surface
equation move water from one cell to the other, and the tracer equation does not move the tracer with it.  The
reported mass of a tracer that differs between the cells changes. -/
theorem C124_conserved_violated :
    massRate Tracer2.exTerm (flowOf (Swe.rest square) (Swe.twoLevels 1 (-1))) (fun _ => none) exW (fun _ => none)
      (Swe.rest square) (Swe.twoLevels 1 (-1)) (Swe.twoLevels 1 0) ≠ 0 := by
  have h2 : Real.sqrt 2 ≠ 0 := by positivity
  have hh : ∀ x, (Swe.totalH exW (Swe.twoLevels 1 (-1)) x).v = 10 + (Swe.twoLevels 1 (-1) x).v := fun x => by
    rw [exW_depth]; simp
  have hdiv : DivExact square fun i => Swe.twoLevels 1 0 * (Swe.totalH exW (Swe.twoLevels 1 (-1)) * Swe.rest square i) := by
    have : (fun i => Swe.twoLevels 1 0 * (Swe.totalH exW (Swe.twoLevels 1 (-1)) * Swe.rest square i)) =
        fun _ : Fin 2 => squareField ⟨0, 0, 0, 0, 0, 0⟩ ⟨0, 0, 0, 0, 0, 0⟩ := by
      funext i x
      have h0 : ∀ x, squareField ⟨0, 0, 0, 0, 0, 0⟩ ⟨0, 0, 0, 0, 0, 0⟩ x = (0 : Jet 2) := by
        intro x
        apply Jet.ext
        · rcases x with x | x | x | x <;> cases x <;> norm_num [squareField, Quad.jet]
        · funext j
          rcases x with x | x | x | x <;> cases x <;> fin_cases j <;> norm_num [squareField, Quad.jet]
      rw [h0]
      apply Jet.ext
      · simp [Swe.rest]
      · funext j
        have : ∀ y : Pt square, (Swe.rest square i y).v = 0 ∧ ∀ j, (Swe.rest square i y).g j = 0 := by
          simp [Swe.rest]
        simp [(this x).1, (this x).2 j]
    rw [this]
    exact square_divExact _ _
  rw [C124_budget _ _ _ exW _ _ _ _ rfl rfl rfl rfl rfl square_flat hdiv]
  have h1 : ∀ s : SqS, facetDefect Tracer2.exTerm exW (Swe.rest square) (Swe.twoLevels 1 (-1)) (Swe.twoLevels 1 0) s -
      facetLf Tracer2.exTerm (flowOf (Swe.rest square) (Swe.twoLevels 1 (-1))) exW (Swe.rest square)
        (Swe.twoLevels 1 (-1)) (Swe.twoLevels 1 0) s = -20 := by
    intro s
    have hu : Tracer2.unAv (Swe.rest square) s = 0 := by simp [Tracer2.unAv, avg, Swe.rest]
    have hn : (1 / Real.sqrt 2) * (1 / Real.sqrt 2) = 1 / 2 := by
      rw [div_mul_div_comm, Real.mul_self_sqrt (by norm_num)]; norm_num
    have hv : ∀ (a b : ℝ), (Swe.twoLevels a b (.plus s : Pt square)).v = a ∧
        (Swe.twoLevels a b (.minus s : Pt square)).v = b := fun a b => by
      cases s <;> norm_num [Swe.twoLevels, squareField, Quad.jet]
    have hr : ∀ i (x : Pt square), (Swe.rest square i x).v = 0 := fun i x => by simp [Swe.rest]
    have hq : Real.sqrt (exW.g / ((10 + 1 + (10 + -1)) / 2)) = 1 := by
      rw [show exW.g / ((10 + 1 + (10 + -1)) / 2) = 1 by norm_num [exW, Swe.exTerm], Real.sqrt_one]
    have hnp : ∀ i, square.np s i = 1 / Real.sqrt 2 := fun _ => rfl
    simp only [facetDefect, facetLf, hu, hh, hv, hr, hq, hnp, abs_zero, Fin.sum_univ_two]
    simp only [zero_mul, mul_zero, zero_div, ite_self, add_zero, sub_zero, zero_add]
    linear_combination -40 * hn
  have h3 : ∀ b : square.B, leaves Tracer2.exTerm (flowOf (Swe.rest square) (Swe.twoLevels 1 (-1))) (fun _ => none) exW
      (fun _ => none) (Swe.rest square) (Swe.twoLevels 1 (-1)) (Swe.twoLevels 1 0) b = 0 := fun b => by
    rw [C124_outflow _ _ _ _ _ _ _ _ _ rfl]
    simp [Swe.volFlux, Swe.openFuncs, Swe.imposeDynamic]
  have h4 : square.dS (fun s => facetDefect Tracer2.exTerm exW (Swe.rest square) (Swe.twoLevels 1 (-1)) (Swe.twoLevels 1 0) s -
      facetLf Tracer2.exTerm (flowOf (Swe.rest square) (Swe.twoLevels 1 (-1))) exW (Swe.rest square)
        (Swe.twoLevels 1 (-1)) (Swe.twoLevels 1 0) s) = -20 * Real.sqrt 2 := by
    have e := sum_sqS fun s => sqWS s * (-20 : ℝ)
    rw [dS_congr h1]
    change (∑ s : SqS, sqWS s * (-20 : ℝ)) = _
    rw [e]
    simp only [sqWS]
    ring
  rw [h4]
  simp only [h3, mul_zero, Finset.sum_const_zero, sub_zero]
  positivity

/-- C124 (violated): horizontal diffusion over a sloping bottom changes the reported mass of a linear tracer in water at
rest in a closed basin. -/
theorem C124_diffusion_violated :
    Tracer2.diffusion Tracer2.exTerm (flowOf (Swe.rest square) (cst square 0)) (some (cst square 1)) (fun _ => none)
      (squareField ⟨0, 1, 0, 0, 0, 0⟩ ⟨0, 1, 0, 0, 0, 0⟩) (Swe.totalH slopeW (cst square 0)) ≠ 0 := by
  have hd : ∀ x, Swe.totalH slopeW (cst square 0) x = squareField ⟨10, 1, 0, 0, 0, 0⟩ ⟨10, 1, 0, 0, 0, 0⟩ x := by
    intro x
    apply Jet.ext
    · simp [Swe.totalH, slopeW, Depth.total, Depth.displacement]
    · funext j
      simp [Swe.totalH, slopeW, Depth.total, Depth.displacement]
  rw [C124_diffusion _ _ _ _ _ _ square_flat (fun _ => rfl)
    (fun s => by cases s <;> norm_num [squareField, Quad.jet])
    (fun s => by rw [hd, hd]; cases s <;> norm_num [squareField, Quad.jet])]
  have e := sum_sqC fun c => (1 / 6 : ℝ) * ∑ i, (Swe.totalH slopeW (cst square 0) (.cell c : Pt square)).g i *
    ((cst square 1 (.cell c : Pt square)).v * (squareField ⟨0, 1, 0, 0, 0, 0⟩ ⟨0, 1, 0, 0, 0, 0⟩ (.cell c)).g i)
  have e' : (square.dx fun x => ∑ i, (Swe.totalH slopeW (cst square 0) (.cell x)).g i *
      ((cst square 1 (.cell x)).v * (squareField ⟨0, 1, 0, 0, 0, 0⟩ ⟨0, 1, 0, 0, 0, 0⟩ (.cell x)).g i)) = 1 := by
    refine e.trans ?_
    simp only [hd]
    norm_num [squareField, Quad.jet, Fin.sum_univ_two]
  rw [e']
  norm_num

end Verif.Mass2
