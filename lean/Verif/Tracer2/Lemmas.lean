import Verif.Tracer2.Model
import Verif.Dg.Lemmas

/-!
Lemmas about the two-dimensional tracer terms.
-/

namespace Verif.Tracer2

open Verif.Dg

variable {m : Mesh 2}

/-- The integral over the interior facets without the Lax-Friedrichs part. -/
noncomputable def advFacet (T : Term m) (uv : Vc m) (c test : Sc m) (s : m.S) : ℝ :=
  ((c (.minus s)).v * upwind T (unAv uv s) + (c (.plus s)).v * (1 - upwind T (unAv uv s))) *
    jumpV (fun i => uv i * test) s

theorem advection_eq (T : Term m) (F : Flow m) (bc : ℕ → Option (BFuncs m)) (u : Vc m) (c test : Sc m)
    (hu : F.uv = some u) :
    advection T F bc c test =
      (m.dx fun x => div (fun i => corrected F u i * test) (.cell x) * (c (.cell x)).v) -
      (if T.dg then
        m.dS (advFacet T (corrected F u) c test) +
        (if T.lf then m.dS fun s => (1 / 2) * |unAv (corrected F u) s| * F.lfFactor * (jump test s * jump c s)
        else 0) else 0) -
      ∑ b, m.wB b * (advBndFlux T F (corrected F u) bc c (m.marker b) b * (test (.bnd b)).v) := by
  unfold advection
  simp only [hu, bndLoop_eq, dx_neg]
  have h1 : (m.dx fun x => ((corrected F u 0 * test) (.cell x)).g 0 * (c (.cell x)).v +
      ((corrected F u 1 * test) (.cell x)).g 1 * (c (.cell x)).v) =
      m.dx fun x => div (fun i => corrected F u i * test) (.cell x) * (c (.cell x)).v :=
    dx_congr fun x => by simp [div, Fin.sum_univ_two]; ring
  have h2 : (m.dS fun s => ((c (.minus s)).v * upwind T (unAv (corrected F u) s) +
        (c (.plus s)).v * (1 - upwind T (unAv (corrected F u) s))) *
      ((test (.plus s)).v * ((corrected F u 0 (.plus s)).v * m.np s 0) +
        (test (.minus s)).v * ((corrected F u 0 (.minus s)).v * m.nm s 0) +
      ((test (.plus s)).v * ((corrected F u 1 (.plus s)).v * m.np s 1) +
        (test (.minus s)).v * ((corrected F u 1 (.minus s)).v * m.nm s 1)))) =
      m.dS (advFacet T (corrected F u) c test) :=
    dS_congr fun s => by
      simp only [advFacet, jumpV, Fin.sum_univ_two, Pi.mul_apply, Jet.mul_v]; ring
  rw [h1, h2]
  ring

/-- The external tracer value and velocity. -/
theorem bnd_value (T : Term m) (factor : Sc m) (f : BFuncs m) (k : ℕ) (b : m.B) (c : Jet 2)
    (uv : Fin 2 → ℝ) (e : Jet 2) :
    (bndFunctions T factor f k b c uv e).1 = match f.value with
      | some v => v b
      | none => c := rfl

theorem bnd_noVelocity (T : Term m) (factor : Sc m) (f : BFuncs m) (k : ℕ) (b : m.B) (c : Jet 2)
    (uv : Fin 2 → ℝ) (e : Jet 2) (h1 : f.uv = none) (h2 : f.flux = none) (h3 : f.un = none) :
    (bndFunctions T factor f k b c uv e).2.1 = uv := by
  simp [bndFunctions, h1, h2, h3]

end Verif.Tracer2
