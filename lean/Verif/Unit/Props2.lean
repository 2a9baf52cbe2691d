import Verif.Unit.Props
import Verif.Tracer2.Model

/-!
C141 for the 2D tracer equations.  `Q` is the unit of the tracer.
-/

namespace Verif.Unit

open Verif.Dg Verif.Tracer2

variable {m : Mesh 2}

namespace Conv

variable (U : Conv)

/-- The entry of a boundary in the new units: `diffFlux` is tracer times velocity. -/
noncomputable def tracerFuncs (Q : ℝ) (f : BFuncs m) : BFuncs (U.mesh m) where
  elev := f.elev.map fun e x => jet U.L U.L (e x)
  value := f.value.map fun e x => jet Q U.L (e x)
  uv := f.uv.map fun e x i => U.V * e x i
  flux := f.flux.map fun e x => U.L ^ 3 / U.T * e x
  un := f.un.map fun e x => U.V * e x
  diffFlux := f.diffFlux.map fun e x => Q * U.V * e x

/-- Boundary conditions. -/
noncomputable def tracerBcs (Q : ℝ) (bc : ℕ → Option (BFuncs m)) (k : ℕ) : Option (BFuncs (U.mesh m)) :=
  (bc k).map (U.tracerFuncs Q)

/-- Members and options of the terms. -/
noncomputable def tracerTerm (T : Tracer2.Term m) : Tracer2.Term (U.mesh m) :=
  { depth := U.depth T.depth, dg := T.dg, lf := T.lf, blen := fun k => U.L * T.blen k, sipg := U.sc 1 T.sipg, p := T.p,
    triangle := T.triangle, z := T.z }

/-- The flow. -/
noncomputable def flow (F : Flow m) : Flow (U.mesh m) :=
  { uv := F.uv.map (U.vc U.V), elev := U.sc U.L F.elev, factor := U.sc 1 F.factor, lfFactor := F.lfFactor,
    uvP1 := F.uvP1.map (U.vc U.V), uvMag := F.uvMag.map (U.sc U.V) }

end Conv

open Conv

variable (U : Conv)

theorem corrected_eq (F : Flow m) (u : Vc m) : corrected (U.flow F) (U.vc U.V u) = U.vc U.V (corrected F u) := by
  have h := sc_mul_vc U 1 U.V F.factor u
  rw [one_mul] at h
  exact h

theorem tracer_unAv_eq (u : Vc m) (x : m.S) : Tracer2.unAv (m := U.mesh m) (U.vc U.V u) x = U.V * Tracer2.unAv u x := by
  unfold Tracer2.unAv
  simp only [avg_vc]
  ring

theorem tracer_upwind_eq (T : Tracer2.Term m) (a : ℝ) : Tracer2.upwind (U.tracerTerm T) (U.V * a) = Tracer2.upwind T a := by
  unfold Tracer2.upwind
  rw [sgn_mul U.hV]
  rfl

theorem tracer_bndFunctions_eq (T : Tracer2.Term m) (Q : ℝ) (factor : Sc m) (f : BFuncs m) (k : ℕ) (x : m.B) (c e : Jet 2)
    (u : Fin 2 → ℝ) :
    Tracer2.bndFunctions (U.tracerTerm T) (U.sc 1 factor) (U.tracerFuncs Q f) k x (jet Q U.L c) (fun i => U.V * u i)
      (jet U.L U.L e) = (jet Q U.L (Tracer2.bndFunctions T factor f k x c u e).1,
        fun i => U.V * (Tracer2.bndFunctions T factor f k x c u e).2.1 i,
        jet U.L U.L (Tracer2.bndFunctions T factor f k x c u e).2.2) := by
  have hL := U.hL.ne'
  have hT := U.hT.ne'
  have hd : ∀ e : Jet 2, ((U.tracerTerm T).depth.total (.bnd x) (jet U.L U.L e)).v =
      U.L * (T.depth.total (.bnd x) e).v := fun e => congrArg Jet.v (U.total_eq T.depth (.bnd x) e)
  have hq : ∀ a q h b n : ℝ, 1 * a * (U.L ^ 3 / U.T * q) / (U.L * h * (U.L * b)) * n = U.V * (a * q / (h * b) * n) := by
    intro a q h b n
    unfold V
    field_simp
  have h1 : ∀ a b : ℝ, 1 * a * (U.V * b) = U.V * (a * b) := fun a b => by ring
  have hb : ∀ k, (U.tracerTerm T).blen k = U.L * T.blen k := fun _ => rfl
  unfold Tracer2.bndFunctions tracerFuncs
  simp only [sc_v, pt_bnd]
  cases f.elev <;> cases f.value <;> cases f.uv <;> cases f.flux <;> cases f.un <;>
    simp only [Option.map_some, Option.map_none, hd, hb, hq, h1, mul_assoc U.V]

theorem advBndFlux_eq (T : Tracer2.Term m) (Q : ℝ) (F : Flow m) (u : Vc m) (bc : ℕ → Option (BFuncs m)) (c : Sc m) (k : ℕ)
    (x : m.B) : advBndFlux (U.tracerTerm T) (U.flow F) (U.vc U.V u) (U.tracerBcs Q bc) (U.sc Q c) k x =
      Q * U.V * advBndFlux T F u bc c k x := by
  have hu : ∀ a b n n' u u' : ℝ, n * (1 / 2 * (U.V * a + U.V * b)) + n' * (1 / 2 * (U.V * u + U.V * u')) =
      U.V * (n * (1 / 2 * (a + b)) + n' * (1 / 2 * (u + u'))) := fun a b n n' u u' => by ring
  unfold advBndFlux Conv.tracerBcs
  cases bc k with
  | none =>
    simp only [Option.map_none, vc_v, sc_v, pt_bnd]
    ring
  | some f =>
    have h : Tracer2.bndFunctions (U.tracerTerm T) (U.flow F).factor (U.tracerFuncs Q f) k x (U.sc Q c (.bnd x))
        (fun i => U.V * (u i (.bnd x)).v) ((U.flow F).elev (.bnd x)) = _ :=
      tracer_bndFunctions_eq U T Q F.factor f k x (c (.bnd x)) (F.elev (.bnd x)) fun i => (u i (.bnd x)).v
    simp only [Option.map_some, vc_v, pt_bnd]
    rw [h]
    simp only [hu, tracer_upwind_eq, sc_v, pt_bnd, show ∀ a : Jet 2, (jet Q U.L a).v = Q * a.v from fun _ => rfl]
    ring

/-- C141: advection of a tracer. -/
theorem C141_tracer_advection (T : Tracer2.Term m) (Q : ℝ) (F : Flow m) (bc : ℕ → Option (BFuncs m)) (c test : Sc m) :
    Tracer2.advection (U.tracerTerm T) (U.flow F) (U.tracerBcs Q bc) (U.sc Q c) (U.sc 1 test) =
      U.L ^ 2 * Q / U.T * Tracer2.advection T F bc c test := by
  have := U.hL.ne'
  have := U.hT.ne'
  unfold Tracer2.advection
  cases h : F.uv with
  | none =>
    rw [show (U.flow F).uv = none by simp [Conv.flow, h]]
    exact zero_eq
  | some u =>
    rw [show (U.flow F).uv = some (U.vc U.V u) by simp [Conv.flow, h]]
    simp only [corrected_eq]
    have hp : ∀ i, U.vc U.V (corrected F u) i * U.sc 1 test = U.sc (U.V * 1) (corrected F u i * test) := fun i =>
      sc_mul U _ _ _ _
    refine neg_eq (add_eq (add_eq (U.dx_eq (Q / U.T) (fun x => ?_) (by ring))
      (ite_eq Iff.rfl (add_eq (U.dS_eq (U.L * Q / U.T) (fun x => ?_) (by ring))
        (ite_eq Iff.rfl (U.dS_eq (U.L * Q / U.T) (fun x => ?_) (by ring)) zero_eq)) zero_eq))
      (U.bndLoop_eq (U.L * Q / U.T) (fun k x => ?_) (by ring)))
    · rw [hp, hp]
      simp only [sc_v, sc_g, pt_cell]
      rw [Conv.V]
      field_simp
    · simp only [tracer_unAv_eq, tracer_upwind_eq, sc_v, vc_v, pt_plus, pt_minus]
      rw [Conv.V]
      field_simp
    · rw [tracer_unAv_eq, abs_mul_pos U.hV, jump_sc, jump_sc, show (U.flow F).lfFactor = F.lfFactor from rfl, Conv.V]
      field_simp
    · rw [advBndFlux_eq, sc_v, Conv.V]
      simp only [pt_bnd]
      field_simp

theorem consGamma_eq (F : Flow m) (u : Vc m) (x : m.S) : consGamma (U.flow F) (U.vc U.V u) x = U.V * consGamma F u x := by
  have hu : ∀ p : Vc m, avg (m := U.mesh m) (U.vc U.V p 0) x * m.nm x 0 + avg (m := U.mesh m) (U.vc U.V p 1) x * m.nm x 1 =
      U.V * (avg (p 0) x * m.nm x 0 + avg (p 1) x * m.nm x 1) := fun p => by
    rw [avg_vc, avg_vc]
    ring
  unfold consGamma Conv.flow
  cases F.uvP1 with
  | some p =>
    simp only [Option.map_some]
    rw [hu p, abs_mul_pos U.hV]
    ring
  | none =>
    cases F.uvMag with
    | some q =>
      simp only [Option.map_none, Option.map_some, avg_sc]
      ring
    | none =>
      simp only [Option.map_none, tracer_unAv_eq, abs_mul_pos U.hV]
      ring

theorem consBndFlux_eq (T : Tracer2.Term m) (Q : ℝ) (F : Flow m) (u : Vc m) (bc : ℕ → Option (BFuncs m)) (c : Sc m) (k : ℕ)
    (x : m.B) : consBndFlux (U.tracerTerm T) (U.flow F) (U.vc U.V u) (U.tracerBcs Q bc) (U.sc Q c) k x =
      Q * U.V * consBndFlux T F u bc c k x := by
  have hu : ∀ a b n n' u u' : ℝ, n * (1 / 2 * (U.V * a + U.V * b)) + n' * (1 / 2 * (U.V * u + U.V * u')) =
      U.V * (n * (1 / 2 * (a + b)) + n' * (1 / 2 * (u + u'))) := fun a b n n' u u' => by ring
  unfold consBndFlux Conv.tracerBcs
  cases bc k with
  | none =>
    simp only [Option.map_none, vc_v, sc_v, pt_bnd]
    ring
  | some f =>
    have h : Tracer2.bndFunctions (U.tracerTerm T) (U.flow F).factor (U.tracerFuncs Q f) k x (U.sc Q c (.bnd x))
        (fun i => U.V * (u i (.bnd x)).v) ((U.flow F).elev (.bnd x)) = _ :=
      tracer_bndFunctions_eq U T Q F.factor f k x (c (.bnd x)) (F.elev (.bnd x)) fun i => (u i (.bnd x)).v
    simp only [Option.map_some, vc_v, pt_bnd]
    rw [h]
    simp only [hu, tracer_upwind_eq, sc_v, pt_bnd, show ∀ a : Jet 2, (jet Q U.L a).v = Q * a.v from fun _ => rfl]
    ring

/-- C141: conservative advection of a tracer. -/
theorem C141_conservative_advection (T : Tracer2.Term m) (Q : ℝ) (F : Flow m) (bc : Option (ℕ → Option (BFuncs m)))
    (c test : Sc m) :
    consAdvection (U.tracerTerm T) (U.flow F) (bc.map (U.tracerBcs Q)) (U.sc Q c) (U.sc 1 test) =
      U.L ^ 2 * Q / U.T * consAdvection T F bc c test := by
  have := U.hL.ne'
  have := U.hT.ne'
  unfold consAdvection
  cases h : F.uv with
  | none =>
    rw [show (U.flow F).uv = none by simp [Conv.flow, h]]
    exact zero_eq
  | some u =>
    rw [show (U.flow F).uv = some (U.vc U.V u) by simp [Conv.flow, h]]
    simp only [corrected_eq]
    refine neg_eq (add_eq (add_eq (U.dx_eq (Q / U.T) (fun x => ?_) (by ring))
      (ite_eq Iff.rfl (add_eq (U.dS_eq (U.L * Q / U.T) (fun x => ?_) (by ring))
        (ite_eq Iff.rfl (U.dS_eq (U.L * Q / U.T) (fun x => ?_) (by ring)) zero_eq)) zero_eq)) ?_)
    · simp only [sc_v, sc_g, vc_v, pt_cell]
      rw [Conv.V]
      field_simp
    · unfold consFlux
      simp only [tracer_unAv_eq, tracer_upwind_eq, sc_v, vc_v, pt_plus, pt_minus, jumpN_sc]
      rw [Conv.V]
      field_simp
    · rw [consGamma_eq, jump_sc, jump_sc, Conv.V]
      field_simp
    · cases bc with
      | none => exact zero_eq
      | some bc =>
        refine U.bndLoop_eq (U.L * Q / U.T) (fun k x => ?_) (by ring)
        rw [consBndFlux_eq, sc_v, Conv.V]
        simp only [pt_bnd]
        field_simp

theorem tracer_sigma_eq (T : Tracer2.Term m) (s v a : ℝ) :
    Tracer2.sigma (U.tracerTerm T) (1 * s) (U.L ^ 2 * v) (U.L ^ (2 - 1) * a) = 1 / U.L * Tracer2.sigma T s v a := by
  have := U.hL.ne'
  change 1 * s * (if T.triangle = true then ((T.p : ℝ) + 1) * (T.p + 2) / 2 else (T.p + 1) ^ 2) / _ =
    1 / U.L * (s * (if T.triangle = true then ((T.p : ℝ) + 1) * (T.p + 2) / 2 else (T.p + 1) ^ 2) / _)
  rw [show 2 - 1 = 1 from rfl]
  generalize (if T.triangle = true then ((T.p : ℝ) + 1) * (T.p + 2) / 2 else (T.p + 1) ^ 2) = c
  field_simp

theorem tracer_sigmaMax_eq (T : Tracer2.Term m) (x : m.S) :
    Tracer2.sigmaMax (U.tracerTerm T) x = 1 / U.L * Tracer2.sigmaMax T x := by
  unfold Tracer2.sigmaMax
  change (if Tracer2.sigma (U.tracerTerm T) (1 * _) (U.L ^ 2 * _) (U.L ^ (2 - 1) * _) >
    Tracer2.sigma (U.tracerTerm T) (1 * _) (U.L ^ 2 * _) (U.L ^ (2 - 1) * _) then
    Tracer2.sigma (U.tracerTerm T) (1 * _) (U.L ^ 2 * _) (U.L ^ (2 - 1) * _)
    else Tracer2.sigma (U.tracerTerm T) (1 * _) (U.L ^ 2 * _) (U.L ^ (2 - 1) * _)) = _
  rw [tracer_sigma_eq, tracer_sigma_eq]
  exact ite_max (one_div_pos.mpr U.hL) _ _

theorem avgFlux_eq (k l : ℝ) (mu f : Sc m) (x : m.S) (i : Fin 2) :
    avgFlux (m := U.mesh m) (U.sc k mu) (U.sc l f) x i = k * l / U.L * avgFlux mu f x i := by
  unfold avgFlux
  simp only [sc_v, sc_g, pt_plus, pt_minus]
  ring

/-- The flux of `diffBndFlux` at an open boundary with the velocity `u`. -/
noncomputable def diffOpen {m : Mesh 2} (T : Tracer2.Term m) (F : Flow m) (mu : Sc m) (f : BFuncs m) (c : Sc m) (k : ℕ)
    (b : m.B) (u : Fin 2 → ℝ) : ℝ :=
  let n := m.nb b
  let cIn := c (.bnd b)
  let r := Tracer2.bndFunctions T F.factor f k b cIn u (F.elev (.bnd b))
  let uvAv : Fin 2 → ℝ := fun i => (1 / 2) * (u i + r.2.1 i)
  let sw := Tracer2.upwind T (n 0 * uvAv 0 + n 1 * uvAv 1)
  let gradUp : Fin 2 → ℝ := fun i => cIn.g i * sw + r.1.g i * (1 - sw)
  ∑ i, (mu (.bnd b)).v * gradUp i * n i

theorem diffOpen_eq (T : Tracer2.Term m) (Q : ℝ) (F : Flow m) (mu : Sc m) (f : BFuncs m) (c : Sc m) (k : ℕ) (x : m.B)
    (u : Fin 2 → ℝ) : diffOpen (m := U.mesh m) (U.tracerTerm T) (U.flow F) (U.sc (U.L ^ 2 / U.T) mu) (U.tracerFuncs Q f)
      (U.sc Q c) k x (fun i => U.V * u i) = Q * U.V * diffOpen T F mu f c k x u := by
  have := U.hL.ne'
  have := U.hT.ne'
  have hu : ∀ a b n n' u u' : ℝ, n * (1 / 2 * (U.V * a + U.V * b)) + n' * (1 / 2 * (U.V * u + U.V * u')) =
      U.V * (n * (1 / 2 * (a + b)) + n' * (1 / 2 * (u + u'))) := fun a b n n' u u' => by ring
  have h : Tracer2.bndFunctions (U.tracerTerm T) (U.flow F).factor (U.tracerFuncs Q f) k x (U.sc Q c (.bnd x))
      (fun i => U.V * u i) ((U.flow F).elev (.bnd x)) = _ :=
    tracer_bndFunctions_eq U T Q F.factor f k x (c (.bnd x)) (F.elev (.bnd x)) u
  unfold diffOpen
  simp only
  rw [h]
  simp only [hu, tracer_upwind_eq, sc_v, sc_g, pt_bnd]
  refine sum_eq fun i => ?_
  change _ * (_ + Q / U.L * _ * _) * _ = _
  rw [Conv.V]
  field_simp

theorem diffBndFlux_eq (T : Tracer2.Term m) (Q : ℝ) (F : Flow m) (mu : Sc m) (bc : ℕ → Option (BFuncs m)) (c : Sc m) (k : ℕ)
    (x : m.B) :
    diffBndFlux (U.tracerTerm T) (U.flow F) (U.sc (U.L ^ 2 / U.T) mu) (U.tracerBcs Q bc) (U.sc Q c) k x =
      Q * U.V * diffBndFlux T F mu bc c k x := by
  unfold diffBndFlux Conv.tracerBcs
  cases bc k with
  | none => exact zero_eq
  | some f =>
    simp only [Option.map_some]
    cases hq : f.diffFlux with
    | some q =>
      rw [show (U.tracerFuncs Q f).diffFlux = some fun x => Q * U.V * q x by simp [Conv.tracerFuncs, hq]]
    | none =>
      rw [show (U.tracerFuncs Q f).diffFlux = none by simp [Conv.tracerFuncs, hq]]
      cases h : F.uv with
      | none =>
        rw [show (U.flow F).uv = none by simp [Conv.flow, h]]
        refine Eq.trans ?_ (diffOpen_eq U T Q F mu f c k x fun _ => 0)
        rw [show (fun _ : Fin 2 => U.V * (0 : ℝ)) = fun _ => 0 from funext fun _ => mul_zero _]
        rfl
      | some u =>
        rw [show (U.flow F).uv = some (U.vc U.V u) by simp [Conv.flow, h]]
        simp only [corrected_eq]
        exact diffOpen_eq U T Q F mu f c k x fun i => (corrected F u i (.bnd x)).v

/-- C141: diffusion of a tracer. -/
theorem C141_tracer_diffusion (T : Tracer2.Term m) (Q : ℝ) (F : Flow m) (mu : Option (Sc m)) (bc : ℕ → Option (BFuncs m))
    (c test : Sc m) :
    diffusion (U.tracerTerm T) (U.flow F) (mu.map (U.sc (U.L ^ 2 / U.T))) (U.tracerBcs Q bc) (U.sc Q c) (U.sc 1 test) =
      U.L ^ 2 * Q / U.T * diffusion T F mu bc c test := by
  have := U.hL.ne'
  have := U.hT.ne'
  cases mu with
  | none => exact zero_eq
  | some mu =>
    refine neg_eq (add_eq (add_eq (U.dx_eq (Q / U.T) (fun x => sum_eq fun i => ?_) (by ring))
      (ite_eq Iff.rfl (add_eq (add_eq (U.dS_eq (U.L * Q / U.T) (fun x => ?_) (by ring))
        (U.dS_eq (U.L * Q / U.T) (fun x => neg_eq (sum_eq fun i => ?_)) (by ring)))
        (U.dS_eq (U.L * Q / U.T) (fun x => neg_eq (sum_eq fun i => ?_)) (by ring))) zero_eq))
      (U.bndLoop_eq (U.L * Q / U.T) (fun k x => neg_eq ?_) (by ring)))
    · simp only [sc_v, sc_g, pt_cell]
      field_simp
    · simp only [tracer_sigmaMax_eq, jumpN_sc, avg_sc, Fin.sum_univ_two]
      field_simp
    · rw [avgFlux_eq, jumpN_sc]
      field_simp
    · rw [avgFlux_eq, jumpN_sc]
      field_simp
    · rw [diffBndFlux_eq, sc_v, Conv.V]
      simp only [pt_bnd]
      field_simp

/-- C141: sources of a tracer, also in the conservative form, whose tracer has the unit `L Q`. -/
theorem C141_tracer_source (T : Tracer2.Term m) (Q : ℝ) (elev : Sc m) (src : Option (Sc m)) (test : Sc m) :
    Tracer2.source (src.map (U.sc (Q / U.T))) (U.sc 1 test) = U.L ^ 2 * Q / U.T * Tracer2.source src test ∧
    consSource (U.tracerTerm T) (U.sc U.L elev) (src.map (U.sc (Q / U.T))) (U.sc 1 test) =
      U.L ^ 2 * (U.L * Q) / U.T * consSource T elev src test := by
  cases src with
  | none => exact ⟨zero_eq, zero_eq⟩
  | some s =>
    refine ⟨neg_eq (U.dx_eq (Q / U.T) (fun x => neg_eq ?_) (by ring)),
      neg_eq (U.dx_eq (U.L * Q / U.T) (fun x => neg_eq ?_) (by ring))⟩
    · simp only [sc_v, pt_cell]
      ring
    · have h : ((U.tracerTerm T).depth.total (.cell x) (U.sc U.L elev (.cell x))).v =
        U.L * (T.depth.total (.cell x) (elev (.cell x))).v := congrArg Jet.v (U.total_eq T.depth (.cell x) (elev (.cell x)))
      rw [h]
      simp only [sc_v, pt_cell]
      ring

end Verif.Unit
