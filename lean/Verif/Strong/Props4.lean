import Verif.Strong.Props2
import Verif.Morph.Model

/-!
C147: the weak forms of the equations of suspended sediment and of the bed are those of the differential equations in the
documentation of `sediment_eq_2d.py` and `exner_eq.py`.

The unknown of the Exner equation is the bathymetry `h`, positive downwards; the bed level of the documentation is `-h`.
The test functions of the Exner equation are continuous: for others the solver raises NotImplementedError
(solver2d.py:519-525).
-/

namespace Verif.Strong

open Verif.Dg Verif.Tracer2 Verif.Morph
open Verif.Sediment (noContr BndVal)

variable {m : Mesh 2}

/-- The bedload through the boundary is counted at this point. -/
def Counted (o : Opts) (k : ℕ) : Prop := ∃ l, o.swe k = some l ∧ noContr l ≠ some true

open Classical in
theorem bedload_eq (o : Opts) (q : Vc m) (test : Sc m) :
    exnerBedload o q test = o.fac * (∑ b, m.wB b * ((test (.bnd b)).v * if Counted o (m.marker b) then normalAt q b else 0))
      - o.fac * m.dx fun x => ∑ i, (test (.cell x)).g i * (q i (.cell x)).v := by
  unfold exnerBedload
  have e1 : m.dx (fun x => o.fac * (q 0 (.cell x)).v * (test (.cell x)).g 0 + o.fac * (q 1 (.cell x)).v * (test (.cell x)).g 1) =
      o.fac * m.dx fun x => ∑ i, (test (.cell x)).g i * (q i (.cell x)).v := by
    rw [← dx_smul]; exact dx_congr fun x => by rw [Fin.sum_univ_two]; ring
  rw [e1, bndLoop_eq, neg_add, ← sub_eq_add_neg]
  congr 1
  rw [← dB_smul, ← Finset.sum_neg_distrib]
  refine Finset.sum_congr rfl fun b _ => ?_
  cases h : o.swe (m.marker b) with
  | none => rw [if_neg fun ⟨l, h1, _⟩ => by simp [h] at h1]; ring
  | some l =>
    by_cases h2 : noContr l = some true
    · rw [if_neg fun ⟨l', h1, h3⟩ => h3 (by rw [h] at h1; rw [← Option.some.inj h1]; exact h2)]; simp [h2]
    · rw [if_pos ⟨l, h, h2⟩]
      simp only [h2, if_false, normalAt, Fin.sum_univ_two]; ring

/-- C147, `div(Q_b)`: the bedload term for a flux whose normal component has no jumps and that does not pass the
boundaries that are taken as closed. -/
theorem C147_bedload (o : Opts) (q : Vc m) (test : Sc m) (ht : Cont test) (hq : ∀ s, jumpV q s = 0)
    (hb : ∀ b, ¬Counted o (m.marker b) → normalAt q b = 0) (hd : DivExact m fun i => test * q i) :
    exnerBedload o q test = m.dx fun x => o.fac * (∑ i, (q i (.cell x)).g i) * (test (.cell x)).v := by
  classical
  have p := parts_grad test q ht hd
  have z : m.dS (fun s => avg test s * jumpV q s) = 0 :=
    (dS_congr (h := fun _ => 0) fun s => by rw [hq, mul_zero]).trans dS_zero
  have e2 : (∑ b, m.wB b * ((test (.bnd b)).v * if Counted o (m.marker b) then normalAt q b else 0)) =
      ∑ b, m.wB b * ((test (.bnd b)).v * normalAt q b) := Finset.sum_congr rfl fun b _ => by
    by_cases h : Counted o (m.marker b)
    · rw [if_pos h]
    · rw [if_neg h, hb b h]
  have e3 : m.dx (fun x => o.fac * (∑ i, (q i (.cell x)).g i) * (test (.cell x)).v) =
      o.fac * m.dx fun x => (test (.cell x)).v * div q (.cell x) := by
    rw [← dx_smul]; exact dx_congr fun x => by simp only [div]; ring
  rw [bedload_eq, e2, e3, p, z]
  ring

/-- C147: the slide term for a continuous bed and test function is that of diffusion with the coefficient `-K`. -/
theorem slide_cont (K sigma h test : Sc m) (hf : m.Flat) (hh : Cont h) (ht : Cont test) :
    exnerSlide K sigma h test = m.dx fun x => ∑ i, (test (.cell x)).g i * ((K (.cell x)).v * (h (.cell x)).g i) := by
  have e1 : ∀ s i, jumpN h s i = 0 := hh.jumpN hf
  have e2 : ∀ s i, jumpN test s i = 0 := ht.jumpN hf
  simp only [exnerSlide, e1, e2, mul_zero, zero_mul, Finset.sum_const_zero, neg_zero, dS_zero, add_zero]
  rw [← dx_neg]
  refine dx_congr fun x => ?_
  rw [← Finset.sum_neg_distrib]
  exact Finset.sum_congr rfl fun i _ => by ring

/-- C147, the slide: with the flux `Q = -K grad(h)` of sediment down the slope (`K ≤ 0`, C47) the term is `div(Q)`, where
the flux does not pass the boundary. -/
theorem C147_slide (K sigma h test : Sc m) (Q : Vc m) (hQ : ∀ i x, (Q i x).v = -((K x).v * (h x).g i)) (hf : m.Flat)
    (hh : Cont h) (ht : Cont test) (hq : ∀ s, jumpV Q s = 0) (hb : ∀ b, normalAt Q b = 0)
    (hd : DivExact m fun i => test * Q i) :
    exnerSlide K sigma h test = m.dx fun x => (∑ i, (Q i (.cell x)).g i) * (test (.cell x)).v := by
  have p := parts_grad test Q ht hd
  have z : m.dS (fun s => avg test s * jumpV Q s) = 0 :=
    (dS_congr (h := fun _ => 0) fun s => by rw [hq, mul_zero]).trans dS_zero
  have z2 : (∑ b, m.wB b * ((test (.bnd b)).v * normalAt Q b)) = 0 :=
    Finset.sum_eq_zero fun b _ => by rw [hb]; ring
  have e1 : m.dx (fun x => ∑ i, (test (.cell x)).g i * ((K (.cell x)).v * (h (.cell x)).g i)) =
      -m.dx fun x => ∑ i, (test (.cell x)).g i * (Q i (.cell x)).v := by
    rw [← dx_neg]
    refine dx_congr fun x => ?_
    rw [← Finset.sum_neg_distrib]
    exact Finset.sum_congr rfl fun i _ => by rw [hQ]; ring
  have e2 : m.dx (fun x => (∑ i, (Q i (.cell x)).g i) * (test (.cell x)).v) =
      m.dx fun x => (test (.cell x)).v * div Q (.cell x) := dx_congr fun x => by simp only [div]; ring
  rw [slide_cont K sigma h test hf hh ht, e1, e2, p, z, z2]
  ring

/-- C147: the slide as a part of the bedload.  The bedload term of the flux `-K grad(h)` in a closed basin is the slide term
times `morfac/(1-porosity)`. -/
theorem C147_slide_flux (o : Opts) (K sigma h test : Sc m) (Q : Vc m) (hQ : ∀ i x, (Q i x).v = -((K x).v * (h x).g i))
    (hf : m.Flat) (hh : Cont h) (ht : Cont test) (hb : ∀ b, ¬Counted o (m.marker b)) :
    exnerBedload o Q test = o.fac * exnerSlide K sigma h test := by
  classical
  have e2 : (∑ b, m.wB b * ((test (.bnd b)).v * if Counted o (m.marker b) then normalAt Q b else 0)) = 0 :=
    Finset.sum_eq_zero fun b _ => by rw [if_neg (hb b)]; ring
  rw [slide_cont K sigma h test hf hh ht, bedload_eq, e2, mul_zero, zero_sub, ← mul_neg, ← dx_neg]
  congr 1
  refine dx_congr fun x => ?_
  rw [← Finset.sum_neg_distrib]
  exact Finset.sum_congr rfl fun i _ => by rw [hQ]; ring

/-- The concentration of suspended sediment: the solution, or the solution per depth. -/
def IsConc (o : Opts) (D : Depth m) (elev sed conc : Sc m) : Prop :=
  ∀ x : m.C, if o.cons then (D.total (.cell x) (elev (.cell x))).v ≠ 0 ∧
      (sed (.cell x)).v = (D.total (.cell x) (elev (.cell x))).v * (conc (.cell x)).v
    else (sed (.cell x)).v = (conc (.cell x)).v

/-- C147, the exchange: in both forms of the sediment equation the bed loses `E` and gains `D` times the concentration. -/
theorem C147_exchange (o : Opts) (D : Depth m) (k : Coef m) (elev sed conc test : Sc m) (hc : IsConc o D elev sed conc) :
    Morph.exnerSource o D k elev sed test =
      m.dx fun x => o.fac * ((k.ero (.cell x)).v - (k.dep (.cell x)).v * (conc (.cell x)).v) * (test (.cell x)).v := by
  unfold Morph.exnerSource
  refine dx_congr fun x => ?_
  have h := hc x
  by_cases ho : o.cons = true
  · simp only [ho, if_true] at h ⊢
    rw [h.2]
    field_simp [h.1]
  · simp only [ho] at h ⊢
    simp only [Bool.false_eq_true, if_false] at h ⊢
    rw [h]; ring

/-- C147, the exchange seen from the water: per depth for the concentration, in all for the depth-integrated form. -/
theorem C147_suspended (o : Opts) (D : Depth m) (k : Coef m) (elev sed conc test : Sc m) (hc : IsConc o D elev sed conc) :
    erosion D o.cons k.ero elev test + deposition D k.dep elev sed test =
      m.dx fun x => ((k.ero (.cell x)).v - (k.dep (.cell x)).v * (conc (.cell x)).v)
        / (if o.cons then 1 else (D.total (.cell x) (elev (.cell x))).v) * (test (.cell x)).v := by
  unfold erosion deposition
  rw [← dx_add]
  refine dx_congr fun x => ?_
  have h := hc x
  by_cases ho : o.cons = true
  · simp only [ho, if_true] at h ⊢
    rw [h.2]
    field_simp [h.1]
    ring
  · simp only [ho] at h ⊢
    simp only [Bool.false_eq_true, if_false] at h ⊢
    rw [h]; ring

/-- Rate of change of the bathymetry in the documented equation: exchange, bedload and slide. -/
noncomputable def bedRate (o : Opts) (k : Coef m) (conc : Sc m) (q Q : Vc m) (x : m.C) : ℝ :=
  (if o.suspended then o.fac * ((k.ero (.cell x)).v - (k.dep (.cell x)).v * (conc (.cell x)).v) else 0)
    + (if o.useBedload then o.fac * ∑ i, (q i (.cell x)).g i else 0)
    + if o.useSlide then ∑ i, (Q i (.cell x)).g i else 0

/-- C147: the weak form of the Exner equation for a bed and fluxes that fit the boundary conditions. -/
theorem C147_exner (o : Opts) (D : Depth m) (k : Coef m) (elev sed conc h test : Sc m) (Q : Vc m) (hf : m.Flat)
    (ht : Cont test)
    (hs : o.suspended = true → IsConc o D elev sed conc)
    (hq : o.useBedload = true → (∀ s, jumpV (k.bedload h) s = 0) ∧
      (∀ b, ¬Counted o (m.marker b) → normalAt (k.bedload h) b = 0) ∧ DivExact m fun i => test * k.bedload h i)
    (hl : o.useSlide = true → (∀ i x, (Q i x).v = -((k.slide h x).v * (h x).g i)) ∧ Cont h ∧ (∀ s, jumpV Q s = 0) ∧
      (∀ b, normalAt Q b = 0) ∧ DivExact m fun i => test * Q i) :
    exnerResidual o D k elev sed h test = m.dx fun x => bedRate o k conc (k.bedload h) Q x * (test (.cell x)).v := by
  have e1 : (if o.suspended then exnerSource o D k elev sed test else 0) =
      m.dx fun x => (if o.suspended then o.fac * ((k.ero (.cell x)).v - (k.dep (.cell x)).v * (conc (.cell x)).v) else 0)
        * (test (.cell x)).v := by
    by_cases hh : o.suspended = true
    · simp only [hh, if_true]; exact C147_exchange o D k elev sed conc test (hs hh)
    · simp only [hh]; simp [dx_zero]
  have e2 : (if o.useBedload then exnerBedload o (k.bedload h) test else 0) =
      m.dx fun x => (if o.useBedload then o.fac * ∑ i, (k.bedload h i (.cell x)).g i else 0) * (test (.cell x)).v := by
    by_cases hh : o.useBedload = true
    · simp only [hh, if_true]; exact C147_bedload o _ test ht (hq hh).1 (hq hh).2.1 (hq hh).2.2
    · simp only [hh]; simp [dx_zero]
  have e3 : (if o.useSlide then exnerSlide (k.slide h) k.sigma h test else 0) =
      m.dx fun x => (if o.useSlide then ∑ i, (Q i (.cell x)).g i else 0) * (test (.cell x)).v := by
    by_cases hh : o.useSlide = true
    · obtain ⟨h1, h2, h3, h4, h5⟩ := hl hh
      simp only [hh, if_true]; exact C147_slide _ _ h test Q h1 hf h2 ht h3 h4 h5
    · simp only [hh]; simp [dx_zero]
  unfold exnerResidual
  rw [e1, e2, e3, ← dx_add, ← dx_add]
  exact dx_congr fun x => by unfold bedRate; ring

/-- C147: a bed level `z = -h` that solves `z_t + fac div(Q_b) = fac (D T - E)` solves the discrete equations, for every
continuous test function. -/
theorem C147_solution (o : Opts) (D : Depth m) (k : Coef m) (elev sed conc h : Sc m) (zt : m.C → ℝ) (V : Set (Sc m))
    (ho : o.suspended = true ∧ o.useBedload = true ∧ o.useSlide = false) (hf : m.Flat) (hV : ∀ test ∈ V, Cont test)
    (hs : IsConc o D elev sed conc) (hq : ∀ s, jumpV (k.bedload h) s = 0)
    (hb : ∀ b, ¬Counted o (m.marker b) → normalAt (k.bedload h) b = 0)
    (hd : ∀ test ∈ V, DivExact m fun i => test * k.bedload h i)
    (hz : ∀ x, zt x + o.fac * ∑ i, (k.bedload h i (.cell x)).g i =
      o.fac * ((k.dep (.cell x)).v * (conc (.cell x)).v - (k.ero (.cell x)).v)) :
    ∀ test ∈ V, (m.dx fun x => -zt x * (test (.cell x)).v) = exnerResidual o D k elev sed h test := by
  intro test hT
  rw [C147_exner o D k elev sed conc h test (fun _ => cst m 0) hf (hV test hT) (fun _ => hs)
    (fun _ => ⟨hq, hb, hd test hT⟩) (fun h => by rw [ho.2.2] at h; exact absurd h (by decide))]
  refine dx_congr fun x => ?_
  unfold bedRate
  simp only [ho.1, ho.2.1, ho.2.2, if_true, Bool.false_eq_true, if_false]
  linear_combination -(test (.cell x)).v * hz x

/-- C147: the sediment equation is the tracer equation of C138 with the exchange. -/
theorem C147_sediment (o : Opts) (T : Tracer2.Term m) (k : Coef m) (F : Flow m) (bc : ℕ → Option (BFuncs m))
    (uv u : Vc m) (mu c conc test : Sc m) (Q : Vc m) (hF : F.uv = some uv) (hu : ∀ i, u i = F.factor * uv i)
    (hf : m.Flat) (hc : Cont c) (huc : ∀ i, Cont (u i)) (hcg : T.dg = false → Cont test)
    (hQ : ∀ i x, (Q i x).v = (mu x).v * (c x).g i) (hQc : ∀ i, Cont (Q i)) (hb : ∀ b, FitsT T F u bc c b)
    (hbd : ∀ b, diffBndFlux T F mu bc c (m.marker b) b = ∑ i, (Q i (.bnd b)).v * m.nb b i)
    (hs : IsConc o T.depth F.elev c conc)
    (hd1 : o.cons = true → DivExact m fun i => test * (c * u i))
    (hd2 : o.cons = false → DivExact m fun i => c * (u i * test)) (hd3 : DivExact m fun i => test * Q i) :
    sedimentResidual o T k F (some mu) bc c test = m.dx fun x =>
      (-(if o.cons then ∑ i, (c (.cell x) * u i (.cell x)).g i else ∑ i, (u i (.cell x)).v * (c (.cell x)).g i)
        + (∑ i, (Q i (.cell x)).g i)
        + ((k.ero (.cell x)).v - (k.dep (.cell x)).v * (conc (.cell x)).v)
          / (if o.cons then 1 else (T.depth.total (.cell x) (F.elev (.cell x))).v)) * (test (.cell x)).v := by
  have e1 : (if o.cons then consAdvection T F (some bc) c test else advection T F bc c test) =
      m.dx fun x => -(if o.cons then ∑ i, (c (.cell x) * u i (.cell x)).g i
        else ∑ i, (u i (.cell x)).v * (c (.cell x)).g i) * (test (.cell x)).v := by
    by_cases ho : o.cons = true
    · simp only [ho, if_true]
      rw [C138_conservative T F bc uv u c test hF hu hc huc hf hcg hb (hd1 ho)]
      exact dx_congr fun x => by ring
    · have ho' : o.cons = false := by simpa using ho
      simp only [ho', Bool.false_eq_true, if_false]
      rw [C138_advection T F bc uv u c test hF hu hc hf (fun h => ⟨hcg h, huc⟩) hb (hd2 ho')]
      exact dx_congr fun x => by ring
  unfold sedimentResidual
  rw [add_assoc, C147_suspended o T.depth k F.elev c conc test hs, e1,
    C138_diffusion T F bc mu c test Q hQ hQc hc hf hcg hbd hd3, ← dx_add, ← dx_add]
  exact dx_congr fun x => by ring

/-- `src` and `snk` are `F_source` and `F_sink` of the documented sediment equation: the terms of the code are those of
`F_source - F_sink S`. -/
structure Exchange (o : Opts) (D : Depth m) (k : Coef m) (elev : Sc m) (src snk : m.C → ℝ) : Prop where
  source : ∀ test, erosion D o.cons k.ero elev test = m.dx fun x => src x * (test (.cell x)).v
  sink : ∀ c test, deposition D k.dep elev c test = m.dx fun x => -(snk x * (c (.cell x)).v) * (test (.cell x)).v

/-- Right-hand side of the documented Exner equation for the level `-h`, `fac H (F_sink S - F_source)`. -/
noncomputable def documentedSource (o : Opts) (D : Depth m) (elev sed : Sc m) (src snk : m.C → ℝ) (x : m.C) : ℝ :=
  o.fac * ((D.total (.cell x) (elev (.cell x))).v * (snk x * (sed (.cell x)).v - src x))

/-- C147: the source of the Exner equation is the documented one in the non-conservative form, with the source and the sink
of the sediment equation. -/
theorem C147_documented (o : Opts) (D : Depth m) (k : Coef m) (elev sed test : Sc m) (ho : o.cons = false)
    (hD : ∀ x : m.C, (D.total (.cell x) (elev (.cell x))).v ≠ 0) :
    ∃ src snk, Exchange o D k elev src snk ∧
      Morph.exnerSource o D k elev sed test =
        m.dx fun x => -documentedSource o D elev sed src snk x * (test (.cell x)).v := by
  refine ⟨fun x => (k.ero (.cell x)).v / (D.total (.cell x) (elev (.cell x))).v,
    fun x => (k.dep (.cell x)).v / (D.total (.cell x) (elev (.cell x))).v, ⟨fun test => ?_, fun c test => ?_⟩, ?_⟩
  · simp only [erosion, ho, Bool.false_eq_true, if_false]
    exact dx_congr fun x => by ring
  · unfold deposition
    exact dx_congr fun x => by ring
  · unfold Morph.exnerSource documentedSource
    refine dx_congr fun x => ?_
    have := hD x
    simp only [ho, Bool.false_eq_true, if_false]
    field_simp
    ring

/-! ### Examples on the square -/

/-- Water of depth 2, erosion 1, deposition 3, bedload flux `(x, -y)` for every bed. -/
noncomputable def bedCoef : Coef square where
  ero := cst square 1
  dep := cst square 3
  bedload := fun _ => exUv
  slide := fun _ => cst square (-1)
  sigma := cst square 1

noncomputable def bedDepth : Depth square := ⟨cst square 2, true, false, cst square 0⟩

/-- All boundaries open. -/
def bedOpts (cons slide : Bool) : Opts := ⟨cons, true, true, slide, 2, fun _ => some []⟩

theorem bed_total (x : square.C) : (bedDepth.total (.cell x) (cst square 0 (.cell x))).v = 2 := by
  simp [bedDepth, Depth.total, Depth.displacement]

theorem bed_counted (cons slide : Bool) (k : ℕ) : Counted (bedOpts cons slide) k := ⟨[], rfl, by simp [noContr]⟩

theorem bed_jump (s : square.S) : jumpV exUv s = 0 := Cont.jumpV (fun _ => square_cont _) square_flat s

theorem bed_exact (a b c : ℝ) : DivExact square fun i => squareField (lin a b c) (lin a b c) * exUv i :=
  square_divExact_cubic (fun _ => _) (fun _ => _) _ _ (fun _ => lin_deg _ _ _) (fun _ => lin_deg _ _ _)

/-- The bed in both forms of the sediment: concentration 1, rate `2 (1 - 3)` for each linear test function. -/
example (cons : Bool) (a b c : ℝ) :
    let phi := squareField (lin a b c) (lin a b c)
    exnerResidual (bedOpts cons false) bedDepth bedCoef (cst square 0) (cst square (if cons then 2 else 1))
      (cst square 2) phi = square.dx fun x => -4 * (phi (.cell x)).v := by
  intro phi
  rw [C147_exner (bedOpts cons false) bedDepth bedCoef (cst square 0) (cst square (if cons then 2 else 1)) (cst square 1)
    (cst square 2) phi (fun _ => cst square 0) square_flat (square_cont _)]
  · refine dx_congr fun x => ?_
    have h : (∑ i, (exUv i (.cell x)).g i) = 0 := by
      have : ∀ p q : ℝ, (∑ i, ((![lin 0 1 0, lin 0 0 (-1)] i).jet p q).g i) = 0 := fun p q => by simp [Quad.jet, lin]
      cases x <;> exact this _ _
    simp only [bedRate, bedOpts, bedCoef, h]
    simp
    ring
  · intro _ x
    cases cons
    · simp [bedOpts]
    · simp only [bedOpts, if_true, bed_total]
      simp
  · exact fun _ => ⟨bed_jump, fun b h => absurd (bed_counted _ _ _) h, bed_exact a b c⟩
  · exact fun h => nomatch h

/-- The documented equation for the level of the bed is met with the rate 4, hence so are the discrete equations. -/
example : ∀ test ∈ Set.range (fun t : ℝ × ℝ × ℝ => squareField (lin t.1 t.2.1 t.2.2) (lin t.1 t.2.1 t.2.2)),
    (square.dx fun x => -4 * (test (.cell x)).v) = exnerResidual (bedOpts false false) bedDepth bedCoef (cst square 0)
      (cst square 1) (cst square 2) test := by
  refine C147_solution (bedOpts false false) bedDepth bedCoef (cst square 0) (cst square 1) (cst square 1) (cst square 2)
    (fun _ => 4) _ ⟨rfl, rfl, rfl⟩ square_flat ?_ (fun x => by simp [bedOpts]) bed_jump
    (fun b h => absurd (bed_counted _ _ _) h) ?_ fun x => ?_
  · rintro _ ⟨t, rfl⟩; exact square_cont _
  · rintro _ ⟨t, rfl⟩; exact bed_exact _ _ _
  · have h : (∑ i, (exUv i (.cell x)).g i) = 0 := by
      have : ∀ p q : ℝ, (∑ i, ((![lin 0 1 0, lin 0 0 (-1)] i).jet p q).g i) = 0 := fun p q => by simp [Quad.jet, lin]
      cases x <;> exact this _ _
    simp only [bedOpts, bedCoef, h]
    simp
    norm_num

/-- A bed `h = x` sliding with the coefficient `-x (1 - x)`, which stops at the walls. -/
example (a b c : ℝ) :
    let phi := squareField (lin a b c) (lin a b c)
    let Q : Vc square := fun i => squareField (![⟨0, 1, 0, -1, 0, 0⟩, lin 0 0 0] i) (![⟨0, 1, 0, -1, 0, 0⟩, lin 0 0 0] i)
    exnerSlide (squareField ⟨0, -1, 0, 1, 0, 0⟩ ⟨0, -1, 0, 1, 0, 0⟩) (cst square 1) (squareField (lin 0 1 0) (lin 0 1 0)) phi =
      square.dx fun x => (∑ i, (Q i (.cell x)).g i) * (phi (.cell x)).v := by
  intro phi Q
  refine C147_slide _ _ _ phi Q (fun i x => ?_) square_flat (square_cont _) (square_cont _)
    (fun s => Cont.jumpV (fun _ => square_cont _) square_flat s) (fun b => ?_)
    (square_divExact_cubic (fun _ => _) (fun _ => _) _ _ (fun _ => lin_deg _ _ _) (fun _ => lin_deg _ _ _))
  · have : ∀ p q, ((![⟨0, 1, 0, -1, 0, 0⟩, lin 0 0 0] i : Quad).jet p q).v =
        -(((⟨0, -1, 0, 1, 0, 0⟩ : Quad).jet p q).v * ((lin 0 1 0).jet p q).g i) := fun p q => by
      fin_cases i <;> simp [Quad.jet, lin]
      ring
    cases x with
    | cell c => cases c <;> exact this _ _
    | plus c => cases c <;> exact this _ _
    | minus c => cases c <;> exact this _ _
    | bnd c => cases c <;> exact this _ _
  · unfold normalAt
    rw [Fin.sum_univ_two]
    cases b <;> simp [Q, squareField, square, sqNx, sqNy, Quad.jet, lin]

/-- A linear concentration in the flow `(x, -y)`, in water of depth 10. -/
example (r s t a b c : ℝ) :
    let T := squareField (lin r s t) (lin r s t)
    let phi := squareField (lin a b c) (lin a b c)
    let Q : Vc square := fun i => squareField (lin (![s, t] i) 0 0) (lin (![s, t] i) 0 0)
    sedimentResidual (bedOpts false false) trTerm bedCoef trFlow (some (cst square 1)) trBc T phi = square.dx fun x =>
      (-(∑ i, (exUv i (.cell x)).v * (T (.cell x)).g i) + (∑ i, (Q i (.cell x)).g i) + (1 - 3 * (T (.cell x)).v) / 10)
        * (phi (.cell x)).v := by
  intro T phi Q
  have hl : ∀ i : Fin 2, (![lin 0 1 0, lin 0 0 (-1)] i).d = 0 ∧ (![lin 0 1 0, lin 0 0 (-1)] i).e = 0 ∧
      (![lin 0 1 0, lin 0 0 (-1)] i).f = 0 := fun i => by fin_cases i <;> exact ⟨rfl, rfl, rfl⟩
  have hQ : ∀ i x, (Q i x).v = (cst square 1 x).v * (T x).g i := fun i x => by
    have : ∀ p q, ((lin (![s, t] i) 0 0).jet p q).v = (Jet.const 1 : Jet 2).v * ((lin r s t).jet p q).g i := fun p q => by
      fin_cases i <;> simp [Quad.jet, lin]
    cases x with
    | cell c => cases c <;> exact this _ _
    | plus c => cases c <;> exact this _ _
    | minus c => cases c <;> exact this _ _
    | bnd c => cases c <;> exact this _ _
  rw [C147_sediment (bedOpts false false) trTerm bedCoef trFlow trBc exUv exUv (cst square 1) T T phi Q rfl trFlow_u square_flat
    (square_cont _) (fun i => square_cont _) (fun h => nomatch h) hQ (fun i => square_cont _) (tr_fits T)
    (fun b => (C138_boundary trTerm trFlow trBc (cst square 1) T b _).2.2 {} rfl rfl rfl
        (Finset.sum_congr rfl fun i _ => by rw [hQ]))
    (fun x => by simp [bedOpts]) (fun h => nomatch h) (fun _ => ?_)
    (square_divExact_cubic (fun _ => _) (fun _ => _) _ _ (fun _ => lin_deg _ _ _) (fun _ => lin_deg _ _ _))]
  · refine dx_congr fun x => ?_
    have : (trTerm.depth.total (.cell x) (trFlow.elev (.cell x))).v = 10 := by
      simp [trTerm, trFlow, Depth.total, Depth.displacement]
    simp only [this, bedOpts, bedCoef, Bool.false_eq_true, if_false, cst_apply, Jet.const_v]
  · have : (fun i => T * (exUv i * phi)) = fun i => squareField (lin r s t) (lin r s t) * squareField
        (Quad.mulLin (![lin 0 1 0, lin 0 0 (-1)] i) (lin a b c)) (Quad.mulLin (![lin 0 1 0, lin 0 0 (-1)] i) (lin a b c)) := by
      funext i
      rw [← squareField_mul _ _ _ _ (hl i) (hl i) (lin_deg _ _ _) (lin_deg _ _ _)]
      rfl
    rw [this]
    exact square_divExact_cubic (fun _ => _) (fun _ => _) _ _ (fun _ => lin_deg _ _ _) (fun _ => lin_deg _ _ _)

/-- C147 (violated): for depth-integrated sediment the documented equation has a factor of the depth too many.  The code
takes as much from the bed as it adds to the water; the documented equation would take twice as much from below water of
depth 2. -/
theorem C147_documented_violated :
    ∃ (o : Opts) (D : Depth square) (k : Coef square) (elev sed test : Sc square) (src snk : square.C → ℝ), o.cons = true ∧
      (∀ x : square.C, (D.total (.cell x) (elev (.cell x))).v ≠ 0) ∧ Exchange o D k elev src snk ∧
      Morph.exnerSource o D k elev sed test ≠
        square.dx fun x => -documentedSource o D elev sed src snk x * (test (.cell x)).v := by
  refine ⟨bedOpts true false, bedDepth, bedCoef, cst square 0, cst square 0, cst square 1, fun _ => 1, fun _ => 3 / 2, rfl,
    fun x => by rw [bed_total]; norm_num, ⟨fun test => ?_, fun c test => ?_⟩, ?_⟩
  · simp only [erosion, bedOpts, if_true]
    exact dx_congr fun x => by simp [bedCoef]
  · unfold deposition
    exact dx_congr fun x => by rw [bed_total]; simp [bedCoef]; ring
  · have e1 : Morph.exnerSource (bedOpts true false) bedDepth bedCoef (cst square 0) (cst square 0) (cst square 1) =
        square.dx fun _ => 2 := by
      unfold Morph.exnerSource
      exact dx_congr fun x => by simp [bedOpts, bedCoef]
    have e2 : (square.dx fun x => -documentedSource (bedOpts true false) bedDepth (cst square 0) (cst square 0)
        (fun _ => 1) (fun _ => 3 / 2) x * (cst square 1 (.cell x)).v) = square.dx fun _ => 4 := by
      unfold documentedSource
      exact dx_congr fun x => by rw [bed_total]; simp [bedOpts]; norm_num
    rw [e1, e2]
    change (∑ c : SqC, (1 / 6 : ℝ) * 2) ≠ ∑ c : SqC, (1 / 6 : ℝ) * 4
    rw [sum_sqC, sum_sqC]; norm_num

/-- C147 (violated): the slide is documented as a component added to the bedload; it is not multiplied by
`morfac/(1-porosity)` as the bedload is.  With the factor 2 a bed slides half as fast as the flux says. -/
theorem C147_slide_violated :
    ∃ (o : Opts) (K sigma h test : Sc square) (Q : Vc square), (∀ i x, (Q i x).v = -((K x).v * (h x).g i)) ∧
      Cont h ∧ Cont test ∧ (∀ b, ¬Counted o (square.marker b)) ∧
      exnerSlide K sigma h test ≠ exnerBedload o Q test := by
  let o : Opts := ⟨false, false, true, true, 2, fun _ => none⟩
  let h : Sc square := squareField (lin 0 1 0) (lin 0 1 0)
  let Q : Vc square := fun i => cst square (![1, 0] i)
  have hQ : ∀ i x, (Q i x).v = -((cst square (-1) x).v * (h x).g i) := fun i x => by
    have : ∀ p q, (![1, 0] i : ℝ) = -(-1 * ((lin 0 1 0).jet p q).g i) := fun p q => by
      fin_cases i <;> simp [Quad.jet, lin]
    cases x with
    | cell c => cases c <;> exact this _ _
    | plus c => cases c <;> exact this _ _
    | minus c => cases c <;> exact this _ _
    | bnd c => cases c <;> exact this _ _
  have hb : ∀ b, ¬Counted o (square.marker b) := fun b ⟨l, h1, _⟩ => nomatch h1
  have e := C147_slide_flux o (cst square (-1)) (cst square 1) h h Q hQ square_flat (square_cont _) (square_cont _) hb
  refine ⟨o, cst square (-1), cst square 1, h, h, Q, hQ, square_cont _, square_cont _, hb, ?_⟩
  rw [e, slide_cont _ _ _ _ square_flat (square_cont _) (square_cont _)]
  have e1 : (square.dx fun x => ∑ i, (h (.cell x)).g i * ((cst square (-1) (.cell x)).v * (h (.cell x)).g i)) = -1 := by
    have : ∀ p q : ℝ, (∑ i, ((lin 0 1 0).jet p q).g i * ((-1) * ((lin 0 1 0).jet p q).g i)) = -1 := fun p q => by
      simp [Quad.jet, lin]
    refine (dx_congr (h := fun _ => -1) fun x => by cases x <;> exact this _ _).trans ?_
    change (∑ c : SqC, (1 / 6 : ℝ) * -1) = -1
    rw [sum_sqC]; norm_num
  rw [e1]
  norm_num [o]

end Verif.Strong
