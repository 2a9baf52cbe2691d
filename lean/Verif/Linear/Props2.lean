import Verif.Linear.Lemmas
import Verif.Tracer3.Model

/-!
C143: superposition of 3D tracers.
-/

namespace Verif.Linear

open Verif.Dg Verif.Ext Verif.Tracer3

variable {e : Mesh3} {a b : ℝ}

/-- Boundary conditions of a tracer that is `a` times one tracer plus `b` times another. -/
structure Bnd3 (a b : ℝ) (f g h : BFuncs e) : Prop where
  value : Opt3 (fun u v w => ∀ x, w x = a * u x + b * v x) f.value g.value h.value
  uv₁ : f.uv = h.uv
  uv₂ : g.uv = h.uv
  flux₁ : f.flux = h.flux
  flux₂ : g.flux = h.flux
  un₁ : f.un = h.un
  un₂ : g.un = h.un

/-- The same at every boundary. -/
def Bnds3 (a b : ℝ) (f g h : ℕ → Option (BFuncs e)) : Prop := ∀ k, Opt3 (Bnd3 a b) (f k) (g k) (h k)

/-- The outer tracer value combines, the outer velocity is the same. -/
theorem bndF3_eq {f g h : BFuncs e} (H : Bnd3 a b f g h) (x : e.m.B) (c c' : ℝ) (uv : Fin 3 → ℝ) :
    (bndF h x (a * c + b * c') uv).1 = a * (bndF f x c uv).1 + b * (bndF g x c' uv).1 ∧
    (bndF f x c uv).2 = (bndF h x (a * c + b * c') uv).2 ∧ (bndF g x c' uv).2 = (bndF h x (a * c + b * c') uv).2 := by
  obtain ⟨hv, u1, u2, q1, q2, n1, n2⟩ := H
  simp only [bndF, bndFunctions, u1, u2, q1, q2, n1, n2]
  obtain ⟨h1, h2, h3⟩ | ⟨u, v, w, h1, h2, h3, hw⟩ := hv.cases
  · cases h.uv <;> cases h.flux <;> cases h.un <;> simp [h1, h2, h3]
  · cases h.uv <;> cases h.flux <;> cases h.un <;> simp [h1, h2, h3, hw x]

theorem sideTerm_eq (T : Term e) (uv : Vc e.m) {f g h : Option (BFuncs e)} (H : Opt3 (Bnd3 a b) f g h) (c c' test : Sc e.m)
    (x : e.m.B) :
    sideTerm T uv h (sc a b c c') test x = a * sideTerm T uv f c test x + b * sideTerm T uv g c' test x := by
  unfold sideTerm
  obtain ⟨rfl, rfl, rfl⟩ | ⟨u, v, w, rfl, rfl, rfl, hw⟩ := H.cases
  · exact zero_eq
  · refine right_eq _ ?_
    obtain ⟨e1, e2, e3⟩ := bndF3_eq hw x (c (.bnd x)).v (c' (.bnd x)).v fun i => (uv i (.bnd x)).v
    simp only [sideFlux, e2, e3, sc_v, e1]
    ring

theorem cUp_eq (T : Term e) (c c' : Sc e.m) (un : ℝ) (s : e.m.S) :
    cUp T (sc a b c c') un s = a * cUp T c un s + b * cUp T c' un s := by
  simp only [cUp, sc_v]
  ring

theorem hAdvection_eq (T : Term e) (F : Fields e) {f g h : ℕ → Option (BFuncs e)} (H : Bnds3 a b f g h) (c c' test : Sc e.m) :
    hAdvection T F h (sc a b c c') test = a * hAdvection T F f c test + b * hAdvection T F g c' test := by
  unfold hAdvection
  cases F.uv with
  | none => exact zero_eq
  | some uv =>
    have hlf : ∀ s, (1 / 2) * |unAv (totalUv F uv) s| * F.lfFactor * (jump test s * jump (sc a b c c') s) =
        a * ((1 / 2) * |unAv (totalUv F uv) s| * F.lfFactor * (jump test s * jump c s)) +
        b * ((1 / 2) * |unAv (totalUv F uv) s| * F.lfFactor * (jump test s * jump c' s)) := fun s => by
      rw [jump_sc]
      ring
    refine neg_eq (add_eq (add_eq (dx_eq fun x => neg_eq (right_eq _ (sc_v _ _ _))) (ite_eq (add_eq (add_eq (add_eq
      (dSv_eq fun s => right_eq _ (cUp_eq T c c' _ s)) (dSh_eq fun s => right_eq _ (cUp_eq T c c' _ s)))
      (ite_eq (add_eq (dSv_eq hlf) (dSh_eq hlf)) zero_eq)) (sideLoop_eq fun k x => sideTerm_eq T _ (H k) c c' test x)) zero_eq))
      (ite_eq (dsurf_eq fun x => right_eq _ (right_eq _ (sc_v _ _ _))) zero_eq))

theorem vAdvection_eq (T : Term e) (F : Fields e) (c c' test : Sc e.m) :
    vAdvection T F (sc a b c c') test = a * vAdvection T F c test + b * vAdvection T F c' test := by
  unfold vAdvection
  cases F.w with
  | none => exact zero_eq
  | some w =>
    refine neg_eq (add_eq (add_eq (dx_eq fun x => neg_eq (right_eq _ (right_eq _ (sc_v _ _ _)))) (ite_eq (add_eq
      (dSh_eq fun s => right_eq _ (right_eq _ (cUp_eq T c c' _ s))) (ite_eq (dSh_eq fun s => left_eq _ (left_eq _ (jump_sc _ _ s)))
      zero_eq)) zero_eq)) (dsurf_eq fun x => right_eq _ (right_eq _ (right_eq _ (sc_v _ _ _)))))

theorem hDiffusion_eq (T : Term e) (F : Fields e) (c c' test : Sc e.m) :
    hDiffusion T F (sc a b c c') test = a * hDiffusion T F c test + b * hDiffusion T F c' test := by
  unfold hDiffusion
  cases F.diffH with
  | none => exact zero_eq
  | some mu =>
    refine neg_eq (add_eq (add_eq (add_eq (dx_eq fun x => ?_) (ite_eq (dS_eq fun s => ?_) zero_eq))
      (dbottom_eq fun x => neg_eq (right_eq _ ?_))) (dsurf_eq fun x => neg_eq (right_eq _ ?_)))
    · simp only [sc_g]
      ring
    · simp only [sc_g, jumpN_sc]
      ring
    · simp only [sc_g]
      ring
    · simp only [sc_g]
      ring

theorem vDiffusion_eq (T : Term e) (F : Fields e) (c c' test : Sc e.m) :
    vDiffusion T F (sc a b c c') test = a * vDiffusion T F c test + b * vDiffusion T F c' test := by
  unfold vDiffusion
  cases F.diffV with
  | none => exact zero_eq
  | some mu =>
    refine neg_eq (add_eq (dx_eq fun x => ?_) (ite_eq (dSh_eq fun s => ?_) zero_eq))
    · simp only [sc_g]
      ring
    · simp only [sc_g, jumpN_sc]
      ring

theorem source3_or (F : Fields e) (test : Sc e.m) :
    source F test = e.m.dx fun x => (scOr F.source (.cell x)).v * (test (.cell x)).v := by
  unfold source
  cases F.source with
  | none => simp [scOr, Mesh.dx]
  | some s => rfl

/-- C143: the tracer equation of the 3D model.  The three tracers are carried by one flow; only their sources and
boundary values differ. -/
theorem C143_tracer3 (T : Term e) (F : Fields e) (s s' r : Option (Sc e.m)) (hr : scOr r = sc a b (scOr s) (scOr s'))
    {f g h : ℕ → Option (BFuncs e)} (H : Bnds3 a b f g h) (c c' test : Sc e.m) :
    residual T { F with source := r } h (sc a b c c') test =
      a * residual T { F with source := s } f c test + b * residual T { F with source := s' } g c' test := by
  unfold Tracer3.residual
  have hs : source { F with source := r } test = a * source { F with source := s } test + b * source { F with source := s' } test := by
    simp only [source3_or, hr]
    exact dx_eq fun x => right_eq _ (sc_v _ _ _)
  exact add_eq (add_eq (add_eq (add_eq (hAdvection_eq T F H c c' test) (vAdvection_eq T F c c' test))
    (hDiffusion_eq T F c c' test)) (vDiffusion_eq T F c c' test)) hs

end Verif.Linear
