import Verif.Tracer2.Props2

/-!
C74: conservation by the conservative form of the tracer equation.
-/

namespace Verif.Tracer2

open Verif.Dg

variable {m : Mesh 2}

/-- A function that is constant on each cell. -/
def CellConst (f : Sc m) : Prop := ∀ x i, (f (.cell x)).g i = 0

/-- The mean of the normal velocities of the two sides, out of the plus side. -/
noncomputable def meanS (F : Flow m) (u : Vc m) (s : m.S) : ℝ :=
  ∑ i, (vel F u i (.plus s) + vel F u i (.minus s)) / 2 * m.np s i

/-- Tracer times normal velocity of one side, out of the plus side. -/
def sideFlux (F : Flow m) (u : Vc m) (c : Sc m) (s : m.S) (x : Pt m) : ℝ :=
  (c x).v * ∑ i, vel F u i x * m.np s i

/-- The Lax-Friedrichs velocity: the mean normal component of `uv_p1` if given, else the mean of `uv_mag` if given,
else the mean normal velocity. -/
noncomputable def lfSpeed (F : Flow m) (u : Vc m) (s : m.S) : ℝ :=
  match F.uvP1, F.uvMag with
  | some w, _ => |∑ i, ((w i (.plus s)).v + (w i (.minus s)).v) / 2 * m.np s i|
  | none, some w => ((w (.plus s)).v + (w (.minus s)).v) / 2
  | none, none => |meanS F u s|

/-- Flux out of the plus side of an interior facet: the product of tracer and velocity on the side the mean
velocity comes from, and the Lax-Friedrichs part. -/
noncomputable def facetFlux (T : Term m) (F : Flow m) (u : Vc m) (c : Sc m) (s : m.S) : ℝ :=
  (if 0 < meanS F u s then sideFlux F u c s (.plus s)
    else if meanS F u s < 0 then sideFlux F u c s (.minus s)
    else (sideFlux F u c s (.plus s) * (1 - T.z) + sideFlux F u c s (.minus s) * (1 + T.z)) / 2) +
  if T.lf then lfSpeed F u s / 2 * F.lfFactor * ((c (.plus s)).v - (c (.minus s)).v) else 0

theorem facetFlux_eq (T : Term m) (F : Flow m) (u : Vc m) (c : Sc m) (s : m.S) (hflat : m.Flat) :
    facetFlux T F u c s =
  (∑ i, ((c (.minus s)).v * vel F u i (.minus s) * upwind T (unAv (corrected F u) s) +
    (c (.plus s)).v * vel F u i (.plus s) * (1 - upwind T (unAv (corrected F u) s))) * m.np s i) +
  if T.lf then consGamma F (corrected F u) s * ((c (.plus s)).v - (c (.minus s)).v) else 0 := by
  have hm : unAv (corrected F u) s = -meanS F u s := by
    simp only [unAv, avg, meanS, vel, corrected, Fin.sum_univ_two, Pi.mul_apply, Jet.mul_v, hflat s]; ring
  have hg : consGamma F (corrected F u) s = lfSpeed F u s / 2 * F.lfFactor := by
    unfold consGamma lfSpeed
    rw [hm, abs_neg]
    cases F.uvP1 with
    | some w =>
      have : avg (w 0) s * m.nm s 0 + avg (w 1) s * m.nm s 1 =
          -∑ i, ((w i (.plus s)).v + (w i (.minus s)).v) / 2 * m.np s i := by
        simp only [avg, Fin.sum_univ_two, hflat s]; ring
      simp only [this, abs_neg]; ring
    | none =>
      cases F.uvMag with
      | some w => simp only [avg]; ring
      | none => simp only; ring
  unfold facetFlux
  rw [hg, hm]
  congr 1
  unfold upwind sgn sideFlux
  simp only [Fin.sum_univ_two]
  by_cases h1 : 0 < meanS F u s
  · rw [if_pos h1, if_neg (by linarith), if_pos (by linarith)]; ring
  · rw [if_neg h1]
    by_cases h2 : meanS F u s < 0
    · rw [if_pos h2, if_pos (by linarith)]; ring
    · rw [if_neg h2, if_neg (by linarith), if_neg (by linarith)]; ring

/-- C74: for every test function that is constant on cells (such as the indicator of a cell) the advection term is
the sum of one flux for each facet, leaving the plus side and entering the minus side, and the boundary fluxes.
The flux does not depend on the test function. -/
theorem C74_local (T : Term m) (F : Flow m) (bc : Option (ℕ → Option (BFuncs m))) (u : Vc m) (c test : Sc m)
    (hu : F.uv = some u) (hdg : T.dg = true) (hflat : m.Flat) (ht : CellConst test) :
    consAdvection T F bc c test =
      -(m.dS fun s => facetFlux T F u c s * ((test (.plus s)).v - (test (.minus s)).v)) -
      match bc with
      | none => 0
      | some bc => ∑ b, m.wB b * (consBndFlux T F (corrected F u) bc c (m.marker b) b * (test (.bnd b)).v) := by
  unfold consAdvection
  simp only [hu, hdg, if_true]
  have h1 : (m.dx fun x => -((test (.cell x)).g 0 * (corrected F u 0 (.cell x)).v * (c (.cell x)).v +
      (test (.cell x)).g 1 * (corrected F u 1 (.cell x)).v * (c (.cell x)).v)) = 0 := by
    rw [← dx_zero (m := m)]
    exact dx_congr fun x => by rw [ht x 0, ht x 1]; ring
  have h2 : (m.dS (fun s => consFlux T (corrected F u) c s 0 * jumpN test s 0 +
        consFlux T (corrected F u) c s 1 * jumpN test s 1) +
        if T.lf then m.dS fun s => consGamma F (corrected F u) s * (jump test s * jump c s) else 0) =
      m.dS fun s => facetFlux T F u c s * ((test (.plus s)).v - (test (.minus s)).v) := by
    by_cases hl : T.lf = true
    · simp only [hl, if_true]
      rw [← dS_add]
      refine dS_congr fun s => ?_
      rw [facetFlux_eq T F u c s hflat]
      simp only [hl, if_true, consFlux, jumpN, jump, hflat s, Fin.sum_univ_two, vel, corrected,
        Pi.mul_apply, Jet.mul_v]
      ring
    · simp only [hl, if_false, add_zero, Bool.false_eq_true]
      refine dS_congr fun s => ?_
      rw [facetFlux_eq T F u c s hflat]
      simp only [hl, if_false, consFlux, jumpN, hflat s, Fin.sum_univ_two, vel, corrected,
        Pi.mul_apply, Jet.mul_v, Bool.false_eq_true]
      ring
  rw [h1, h2]
  cases bc with
  | none => simp only; ring
  | some bc => simp only [bndLoop_eq]; ring

/-- The flux out of the domain at a boundary point: interior tracer and velocity where there is no entry or the
mean velocity points out; otherwise the prescribed tracer and velocity. -/
noncomputable def outFlux (T : Term m) (F : Flow m) (u : Vc m) (f : Option (BFuncs m)) (c : Sc m) (k : ℕ)
    (b : m.B) : ℝ :=
  let inner := (c (.bnd b)).v * qB F u b
  match f with
  | none => inner
  | some f =>
    let r := bndFunctions T F.factor f k b (c (.bnd b)) (fun i => vel F u i (.bnd b)) (F.elev (.bnd b))
    let outer := r.1.v * ∑ i, r.2.1 i * m.nb b i
    let mean := (qB F u b + ∑ i, r.2.1 i * m.nb b i) / 2
    if 0 < mean then inner else if mean < 0 then outer
    else (inner * (T.z + 1) + outer * (1 - T.z)) / 2

theorem consBndFlux_eq (T : Term m) (F : Flow m) (u : Vc m) (bc : ℕ → Option (BFuncs m)) (c : Sc m) (k : ℕ)
    (b : m.B) : consBndFlux T F (corrected F u) bc c k b = outFlux T F u (bc k) c k b := by
  unfold consBndFlux outFlux
  cases bc k with
  | none => simp only [qB, vel, corrected, Fin.sum_univ_two, Pi.mul_apply, Jet.mul_v]
  | some f =>
    simp only [qB, vel, corrected, Fin.sum_univ_two, Pi.mul_apply, Jet.mul_v]
    generalize bndFunctions T F.factor f k b (c (.bnd b)) (fun i => (F.factor (.bnd b)).v * (u i (.bnd b)).v)
      (F.elev (.bnd b)) = r
    have e : m.nb b 0 * (1 / 2 * ((F.factor (.bnd b)).v * (u 0 (.bnd b)).v + r.2.1 0)) +
        m.nb b 1 * (1 / 2 * ((F.factor (.bnd b)).v * (u 1 (.bnd b)).v + r.2.1 1)) =
        ((F.factor (.bnd b)).v * (u 0 (.bnd b)).v * m.nb b 0 +
          (F.factor (.bnd b)).v * (u 1 (.bnd b)).v * m.nb b 1 + (r.2.1 0 * m.nb b 0 + r.2.1 1 * m.nb b 1)) / 2 := by
      ring
    rw [e]
    unfold upwind sgn
    split
    · ring
    · split
      · ring
      · ring

/-- C74: the total of the tracer changes by the flux through the boundary only. -/
theorem C74_mass (T : Term m) (F : Flow m) (bc : ℕ → Option (BFuncs m)) (u : Vc m) (c : Sc m)
    (hu : F.uv = some u) (hdg : T.dg = true) (hflat : m.Flat) :
    consAdvection T F (some bc) c (cst m 1) =
      -∑ b, m.wB b * outFlux T F u (bc (m.marker b)) c (m.marker b) b := by
  rw [C74_local T F (some bc) u c (cst m 1) hu hdg hflat (fun _ _ => rfl)]
  simp only [cst_apply, Jet.const_v, sub_self, mul_zero, mul_one, consBndFlux_eq]
  rw [dS_zero]
  ring

/-- C74: the total is conserved in a basin without entries and without flow through the boundary. -/
theorem C74_closed (T : Term m) (F : Flow m) (u : Vc m) (c : Sc m)
    (hu : F.uv = some u) (hdg : T.dg = true) (hflat : m.Flat) (hq : ∀ b, qB F u b = 0) :
    consAdvection T F (some fun _ => none) c (cst m 1) = 0 := by
  rw [C74_mass T F _ u c hu hdg hflat]
  simp [outFlux, hq]

/-- C74: without boundary conditions nothing passes the boundary. -/
theorem C74_no_conditions (T : Term m) (F : Flow m) (u : Vc m) (c : Sc m)
    (hu : F.uv = some u) (hdg : T.dg = true) (hflat : m.Flat) :
    consAdvection T F none c (cst m 1) = 0 := by
  rw [C74_local T F none u c (cst m 1) hu hdg hflat (fun _ _ => rfl)]
  simp only [cst_apply, Jet.const_v, sub_self, mul_zero]
  rw [dS_zero]
  ring

/-- C74: where the boundary prescribes tracer `v` and an incoming normal velocity that outweighs the interior one,
exactly the prescribed product comes in. -/
theorem C74_prescribed (T : Term m) (F : Flow m) (u : Vc m) (f : BFuncs m) (c : Sc m) (k : ℕ) (b : m.B)
    (v : m.B → Jet 2) (w : m.B → ℝ) (hv : f.value = some v) (h1 : f.uv = none) (h2 : f.flux = none)
    (hw : f.un = some w) (hn : ∑ i, m.nb b i ^ 2 = 1) (hin : qB F u b + w b < 0) :
    outFlux T F u (some f) c k b = (v b).v * w b := by
  have he : (∑ i, (bndFunctions T F.factor f k b (c (.bnd b)) (fun i => vel F u i (.bnd b))
      (F.elev (.bnd b))).2.1 i * m.nb b i) = w b := by
    simp only [bndFunctions, h1, h2, hw, Fin.sum_univ_two] at hn ⊢
    linear_combination w b * hn
  unfold outFlux
  simp only [he, bnd_value, hv]
  rw [if_neg (by linarith), if_pos (by linarith)]

/-- C74: with a prescribed volume flux `q` into water of depth `h` on a boundary of length `l`: the velocity factor
enters. -/
theorem C74_prescribed_flux (T : Term m) (F : Flow m) (u : Vc m) (f : BFuncs m) (c : Sc m) (k : ℕ) (b : m.B)
    (v : m.B → Jet 2) (q : m.B → ℝ) (hv : f.value = some v) (h1 : f.uv = none) (h2 : f.flux = some q)
    (he : f.elev = none) (hn : ∑ i, m.nb b i ^ 2 = 1)
    (hin : qB F u b + (F.factor (.bnd b)).v * q b / ((T.depth.total (.bnd b) (F.elev (.bnd b))).v * T.blen k) < 0) :
    outFlux T F u (some f) c k b =
      (v b).v * ((F.factor (.bnd b)).v * q b / ((T.depth.total (.bnd b) (F.elev (.bnd b))).v * T.blen k)) := by
  have hs : (∑ i, (bndFunctions T F.factor f k b (c (.bnd b)) (fun i => vel F u i (.bnd b))
      (F.elev (.bnd b))).2.1 i * m.nb b i) =
      (F.factor (.bnd b)).v * q b / ((T.depth.total (.bnd b) (F.elev (.bnd b))).v * T.blen k) := by
    simp only [bndFunctions, h1, h2, he, Fin.sum_univ_two] at hn ⊢
    linear_combination
      (F.factor (.bnd b)).v * q b / ((T.depth.total (.bnd b) (F.elev (.bnd b))).v * T.blen k) * hn
  unfold outFlux
  simp only [hs, bnd_value, hv]
  rw [if_neg (by linarith), if_pos (by linarith)]

/-- C74: sources: the non-conservative form adds the source, the conservative form the source times the depth. -/
theorem C74_source (T : Term m) (elev src test : Sc m) :
    source (some src) test = m.dx (fun x => (src (.cell x)).v * (test (.cell x)).v) ∧
    consSource T elev (some src) test = m.dx (fun x =>
      (T.depth.total (.cell x) (elev (.cell x))).v * (src (.cell x)).v * (test (.cell x)).v) ∧
    source (none : Option (Sc m)) test = 0 ∧ consSource T elev none test = 0 := by
  refine ⟨?_, ?_, rfl, rfl⟩
  · simp only [source, dx_neg, neg_neg]
  · simp only [consSource, dx_neg, neg_neg]

/-- C74: the two forms agree on the source: the conservative source is the plain one times the depth, and the
total that the source brings in is nonnegative for nonnegative source and depth. -/
theorem C74_source_sign (T : Term m) (elev src : Sc m) (hs : ∀ x, 0 ≤ (src (.cell x)).v)
    (hh : ∀ x, 0 ≤ (T.depth.total (.cell x) (elev (.cell x))).v) :
    0 ≤ consSource T elev (some src) (cst m 1) := by
  rw [(C74_source T elev src (cst m 1)).2.1]
  refine dx_nonneg fun x => ?_
  simp only [cst_apply, Jet.const_v, mul_one]
  exact mul_nonneg (hh x) (hs x)

/-! ### Examples -/

/-- A discontinuous tracer in the stream over the square, closed by `C74_no_conditions`; the basin at rest meets the
hypotheses of `C74_closed`. -/
example : consAdvection exTerm exStream none exTest (cst square 1) = 0 :=
  C74_no_conditions exTerm exStream _ exTest rfl rfl square_flat

example : consAdvection exTerm exRest (some fun _ => none) exTest (cst square 1) = 0 :=
  C74_closed exTerm exRest (fun _ => cst square 0) exTest rfl rfl square_flat
    (fun b => by simp [qB, vel, exRest])

/-- The indicator of the lower triangle is constant on cells. -/
example : CellConst (squareField ⟨1, 0, 0, 0, 0, 0⟩ ⟨0, 0, 0, 0, 0, 0⟩) := by
  intro x i
  cases x <;> fin_cases i <;> simp [squareField, Quad.jet]

/-- C74: a boundary that prescribes an outgoing velocity while the water inside is at rest lets no tracer out. -/
theorem C74_outflow_violated (w : ℝ) (hw : 0 < w) (b : square.B) (c : Sc square) :
    outFlux exTerm exRest (fun _ => cst square 0) (some { un := some fun _ => w }) c 1 b = 0 := by
  have hn : ∑ i, square.nb b i ^ 2 = 1 := square_unit.2.2 b
  have hs : (∑ i, (w * square.nb b i) * square.nb b i) = w := by
    rw [Fin.sum_univ_two] at hn ⊢
    linear_combination w * hn
  have hq : qB exRest (fun _ => cst square 0) b = 0 := by simp [qB, vel, exRest]
  unfold outFlux
  simp only [bndFunctions, hs, hq]
  rw [if_pos (by linarith)]
  ring

end Verif.Tracer2
