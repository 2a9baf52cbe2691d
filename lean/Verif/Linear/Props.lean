import Verif.Linear.Lemmas
import Verif.Tracer2.Model

/-!
C143: superposition of 2D tracers.
-/

namespace Verif.Linear

open Verif.Dg Verif.Tracer2

variable {m : Mesh 2} {a b : ℝ}

/-- Boundary conditions of a tracer that is `a` times one tracer plus `b` times another: the values and diffusive fluxes
combine, the entries for the flow are the same. -/
structure Bnd2 (a b : ℝ) (f g h : BFuncs m) : Prop where
  value : Opt3 (fun u v w => ∀ x, w x = jet a b (u x) (v x)) f.value g.value h.value
  diffFlux : Opt3 (fun u v w => ∀ x, w x = a * u x + b * v x) f.diffFlux g.diffFlux h.diffFlux
  elev₁ : f.elev = h.elev
  elev₂ : g.elev = h.elev
  uv₁ : f.uv = h.uv
  uv₂ : g.uv = h.uv
  flux₁ : f.flux = h.flux
  flux₂ : g.flux = h.flux
  un₁ : f.un = h.un
  un₂ : g.un = h.un

/-- The same at every boundary. -/
def Bnds2 (a b : ℝ) (f g h : ℕ → Option (BFuncs m)) : Prop := ∀ k, Opt3 (Bnd2 a b) (f k) (g k) (h k)

/-- The outer tracer value combines, the outer velocity is the same. -/
theorem bndFunctions_eq (T : Term m) (factor : Sc m) {f g h : BFuncs m} (H : Bnd2 a b f g h) (k : ℕ) (x : m.B) (c c' : Jet 2)
    (uv : Fin 2 → ℝ) (el : Jet 2) :
    (bndFunctions T factor h k x (jet a b c c') uv el).1 =
      jet a b (bndFunctions T factor f k x c uv el).1 (bndFunctions T factor g k x c' uv el).1 ∧
    (bndFunctions T factor f k x c uv el).2.1 = (bndFunctions T factor h k x (jet a b c c') uv el).2.1 ∧
    (bndFunctions T factor g k x c' uv el).2.1 = (bndFunctions T factor h k x (jet a b c c') uv el).2.1 := by
  obtain ⟨hv, -, e1, e2, u1, u2, q1, q2, n1, n2⟩ := H
  simp only [bndFunctions, e1, e2, u1, u2, q1, q2, n1, n2, and_self, and_true]
  obtain ⟨h1, h2, h3⟩ | ⟨u, v, w, h1, h2, h3, hw⟩ := hv.cases
  · simp only [h1, h2, h3]
  · simp only [h1, h2, h3]
    exact hw x

theorem advBndFlux_eq (T : Term m) (F : Flow m) (uv : Vc m) {f g h : ℕ → Option (BFuncs m)} (H : Bnds2 a b f g h) (c c' : Sc m)
    (k : ℕ) (x : m.B) :
    advBndFlux T F uv h (sc a b c c') k x = a * advBndFlux T F uv f c k x + b * advBndFlux T F uv g c' k x := by
  unfold advBndFlux
  obtain ⟨h1, h2, h3⟩ | ⟨u, v, w, h1, h2, h3, hw⟩ := (H k).cases
  · simp only [h1, h2, h3, sc_v]
    ring
  · simp only [h1, h2, h3]
    obtain ⟨e1, e2, e3⟩ := bndFunctions_eq T F.factor hw k x (c (.bnd x)) (c' (.bnd x)) (fun i => (uv i (.bnd x)).v) (F.elev (.bnd x))
    rw [e2, e3]
    simp only [sc, e1, jet_v]
    ring

theorem consBndFlux_eq (T : Term m) (F : Flow m) (uv : Vc m) {f g h : ℕ → Option (BFuncs m)} (H : Bnds2 a b f g h) (c c' : Sc m)
    (k : ℕ) (x : m.B) :
    consBndFlux T F uv h (sc a b c c') k x = a * consBndFlux T F uv f c k x + b * consBndFlux T F uv g c' k x := by
  unfold consBndFlux
  obtain ⟨h1, h2, h3⟩ | ⟨u, v, w, h1, h2, h3, hw⟩ := (H k).cases
  · simp only [h1, h2, h3, sc_v]
    ring
  · simp only [h1, h2, h3]
    obtain ⟨e1, e2, e3⟩ := bndFunctions_eq T F.factor hw k x (c (.bnd x)) (c' (.bnd x)) (fun i => (uv i (.bnd x)).v) (F.elev (.bnd x))
    rw [e2, e3]
    simp only [sc, e1, jet_v]
    ring

theorem diffBndFlux_eq (T : Term m) (F : Flow m) (mu : Sc m) {f g h : ℕ → Option (BFuncs m)} (H : Bnds2 a b f g h) (c c' : Sc m)
    (k : ℕ) (x : m.B) :
    diffBndFlux T F mu h (sc a b c c') k x = a * diffBndFlux T F mu f c k x + b * diffBndFlux T F mu g c' k x := by
  unfold diffBndFlux
  obtain ⟨h1, h2, h3⟩ | ⟨u, v, w, h1, h2, h3, hw⟩ := (H k).cases
  · simp only [h1, h2, h3]
    ring
  · simp only [h1, h2, h3]
    obtain ⟨d1, d2, d3⟩ | ⟨p, q, r, d1, d2, d3, hr⟩ := hw.diffFlux.cases
    · simp only [d1, d2, d3]
      cases F.uv <;>
      · refine sum_eq fun i => ?_
        obtain ⟨e1, e2, e3⟩ := bndFunctions_eq T F.factor hw k x (c (.bnd x)) (c' (.bnd x)) _ (F.elev (.bnd x))
        rw [e2, e3]
        simp only [sc, e1, jet_g]
        ring
    · simp only [d1, d2, d3]
      exact hr x

/-- C143: advection of a tracer, non-conservative form. -/
theorem C143_advection (T : Term m) (F : Flow m) {f g h : ℕ → Option (BFuncs m)} (H : Bnds2 a b f g h) (c c' test : Sc m) :
    advection T F h (sc a b c c') test = a * advection T F f c test + b * advection T F g c' test := by
  unfold advection
  cases F.uv with
  | none => exact zero_eq
  | some uv =>
    refine neg_eq (add_eq (add_eq (dx_eq fun x => ?_) (ite_eq (add_eq (dS_eq fun s => ?_) (ite_eq (dS_eq fun s => ?_) zero_eq)) zero_eq))
      (bndLoop_eq fun k x => right_eq _ (advBndFlux_eq T F _ H c c' k x)))
    · simp only [sc_v]
      ring
    · simp only [sc_v]
      ring
    · simp only [jump_sc]
      ring

/-- C143: advection of a tracer, conservative form. -/
theorem C143_conservative (T : Term m) (F : Flow m) {f g h : ℕ → Option (BFuncs m)} (H : Bnds2 a b f g h) (c c' test : Sc m) :
    consAdvection T F (some h) (sc a b c c') test =
      a * consAdvection T F (some f) c test + b * consAdvection T F (some g) c' test := by
  unfold consAdvection
  cases F.uv with
  | none => exact zero_eq
  | some uv =>
    refine neg_eq (add_eq (add_eq (dx_eq fun x => ?_) (ite_eq (add_eq (dS_eq fun s => ?_) (ite_eq (dS_eq fun s => ?_) zero_eq)) zero_eq))
      (bndLoop_eq fun k x => right_eq _ (consBndFlux_eq T F _ H c c' k x)))
    · simp only [sc_v]
      ring
    · simp only [consFlux, sc_v]
      ring
    · simp only [jump_sc]
      ring

/-- C143: diffusion of a tracer. -/
theorem C143_diffusion (T : Term m) (F : Flow m) (mu : Option (Sc m)) {f g h : ℕ → Option (BFuncs m)} (H : Bnds2 a b f g h)
    (c c' test : Sc m) :
    diffusion T F mu h (sc a b c c') test = a * diffusion T F mu f c test + b * diffusion T F mu g c' test := by
  unfold diffusion
  cases mu with
  | none => exact zero_eq
  | some mu =>
    refine neg_eq (add_eq (add_eq (dx_eq fun x => sum_eq fun i => ?_) (ite_eq (add_eq (add_eq (dS_eq fun s => left_eq _ (sum_eq fun i => ?_))
      (dS_eq fun s => neg_eq (sum_eq fun i => ?_))) (dS_eq fun s => neg_eq (sum_eq fun i => ?_))) zero_eq))
      (bndLoop_eq fun k x => neg_eq (right_eq _ (diffBndFlux_eq T F mu H c c' k x))))
    · simp only [sc_g]
      ring
    · simp only [jumpN_sc]
      ring
    · simp only [jumpN_sc]
      ring
    · simp only [avgFlux, sc_g]
      ring

theorem source_or (s : Option (Sc m)) (test : Sc m) : source s test = m.dx fun x => (scOr s (.cell x)).v * (test (.cell x)).v := by
  cases s with
  | none => simp [source, scOr, Mesh.dx]
  | some s => simp [source, scOr, Mesh.dx, Finset.sum_neg_distrib]

theorem consSource_or (T : Term m) (elev : Sc m) (s : Option (Sc m)) (test : Sc m) :
    consSource T elev s test =
      m.dx fun x => (T.depth.total (.cell x) (elev (.cell x))).v * (scOr s (.cell x)).v * (test (.cell x)).v := by
  cases s with
  | none => simp [consSource, scOr, Mesh.dx]
  | some s => simp [consSource, scOr, Mesh.dx, Finset.sum_neg_distrib]

/-- C143: sources of tracers; a source that is not set counts as zero. -/
theorem C143_source (T : Term m) (elev : Sc m) (s s' r : Option (Sc m)) (hr : scOr r = sc a b (scOr s) (scOr s')) (test : Sc m) :
    source r test = a * source s test + b * source s' test ∧
    consSource T elev r test = a * consSource T elev s test + b * consSource T elev s' test := by
  simp only [source_or, consSource_or, hr]
  exact ⟨dx_eq fun x => right_eq _ (sc_v _ _ _), dx_eq fun x => right_eq _ (left_eq _ (sc_v _ _ _))⟩

end Verif.Linear
