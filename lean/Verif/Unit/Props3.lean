import Verif.Unit.Props2
import Verif.Tracer3.Model

/-!
C141 for the vertical velocity and the tracers of the 3D model.
-/

namespace Verif.Unit

open Verif.Dg Verif.Ext

variable {e : Mesh3}

namespace Conv

variable (U : Conv)

/-- An extruded mesh. -/
abbrev mesh3 (e : Mesh3) : Mesh3 := ⟨U.mesh e.m, e.hor, e.face⟩

theorem dSh_eq {f g : e.m.S → ℝ} (k : ℝ) {K : ℝ} (h : ∀ x, f x = k * g x) (hk : U.L ^ 2 * k = K) :
    (U.mesh3 e).dSh f = K * e.dSh g :=
  U.dS_eq k (fun x => ite_eq Iff.rfl (h x) zero_eq) hk

theorem dSv_eq {f g : e.m.S → ℝ} (k : ℝ) {K : ℝ} (h : ∀ x, f x = k * g x) (hk : U.L ^ 2 * k = K) :
    (U.mesh3 e).dSv f = K * e.dSv g :=
  U.dS_eq k (fun x => ite_eq Iff.rfl zero_eq (h x)) hk

theorem dsurf_eq {f g : e.m.B → ℝ} (k : ℝ) {K : ℝ} (h : ∀ x, f x = k * g x) (hk : U.L ^ 2 * k = K) :
    (U.mesh3 e).dsurf f = K * e.dsurf g := by
  unfold Mesh3.dsurf
  refine sum_eq fun x => ?_
  change U.L ^ (3 - 1) * e.m.wB x * (if e.face x = .surf then f x else 0) = _
  rw [h, ← hk, ← mul_ite_zero, show 3 - 1 = 2 from rfl]
  ring

theorem dbottom_eq {f g : e.m.B → ℝ} (k : ℝ) {K : ℝ} (h : ∀ x, f x = k * g x) (hk : U.L ^ 2 * k = K) :
    (U.mesh3 e).dbottom f = K * e.dbottom g := by
  unfold Mesh3.dbottom
  refine sum_eq fun x => ?_
  change U.L ^ (3 - 1) * e.m.wB x * (if e.face x = .bottom then f x else 0) = _
  rw [h, ← hk, ← mul_ite_zero, show 3 - 1 = 2 from rfl]
  ring

theorem sideLoop_eq {f g : ℕ → e.m.B → ℝ} (k : ℝ) {K : ℝ} (h : ∀ j x, f j x = k * g j x) (hk : U.L ^ 2 * k = K) :
    (U.mesh3 e).sideLoop f = K * e.sideLoop g :=
  U.bndLoop_eq k (fun j x => ite_eq Iff.rfl (h j x) zero_eq) hk

theorem normalH_eq (k : ℝ) (u : Vc e.m) (x : e.m.B) : normalH (e := U.mesh3 e) (U.vc k u) x = k * normalH u x := by
  unfold normalH
  simp only [vc_v, pt_bnd]
  ring

theorem facetDiv_eq (k l : ℝ) (u : Vc e.m) (t : Sc e.m) (x : e.m.S) :
    facetDiv (e := U.mesh3 e) (U.vc k u) (U.sc l t) x = k * l * facetDiv u t x := by
  unfold facetDiv
  simp only [avg_vc, jumpN_sc]
  ring

theorem sc_add (k : ℝ) (f g : Sc e.m) : U.sc k f + U.sc k g = U.sc k (f + g) := funext fun _ => jet_add _ _ _

theorem sc_sub (k : ℝ) (f g : Sc e.m) : U.sc k f - U.sc k g = U.sc k (f - g) := funext fun _ => jet_sub _ _ _

/-- Members and options of the terms of the tracer equation. -/
noncomputable def term3 (T : Tracer3.Term e) : Tracer3.Term (U.mesh3 e) :=
  { hdg := T.hdg, vdg := T.vdg, symm := T.symm, lf := T.lf, sipg := T.sipg, sipgV := U.sc 1 T.sipgV, p := T.p, q := T.q,
    triangle := T.triangle, z := T.z }

/-- The fields that the terms read; `Q` is the unit of the tracer. -/
noncomputable def fields3 (Q : ℝ) (F : Tracer3.Fields e) : Tracer3.Fields (U.mesh3 e) :=
  { uv := F.uv.map (U.vc U.V), uvDav := F.uvDav.map (U.vc U.V), elev := U.sc U.L F.elev, w := F.w.map (U.sc U.V),
    wMesh := F.wMesh.map (U.sc U.V), lfFactor := F.lfFactor, diffH := F.diffH.map (U.sc (U.L ^ 2 / U.T)),
    diffV := F.diffV.map (U.sc (U.L ^ 2 / U.T)), source := F.source.map (U.sc (Q / U.T)) }

/-- The entry of a boundary. -/
noncomputable def funcs3 (Q : ℝ) (f : Tracer3.BFuncs e) : Tracer3.BFuncs (U.mesh3 e) where
  elev := f.elev.map fun a x => U.L * a x
  value := f.value.map fun a x => Q * a x
  uv := f.uv.map fun a x i => U.V * a x i
  flux := f.flux.map fun a x => U.L ^ 3 / U.T * a x
  un := f.un.map fun a x => U.V * a x

end Conv

open Conv

variable (U : Conv)

/-- C141: the vertical velocity. -/
theorem C141_vertical_velocity (bfs : ℕ → Bool) (uv : Vc e.m) (w test : Sc e.m) :
    wLeft (e := U.mesh3 e) (U.sc U.V w) (U.sc 1 test) = U.L ^ 3 / U.T * wLeft w test ∧
    wRight (e := U.mesh3 e) bfs (U.vc U.V uv) (U.sc 1 test) = U.L ^ 3 / U.T * wRight bfs uv test := by
  have := U.hL.ne'
  have := U.hT.ne'
  unfold wLeft wRight
  constructor
  · refine sub_eq (add_eq (U.dsurf_eq (U.L / U.T) (fun x => ?_) (by ring)) (U.dSh_eq (U.L / U.T) (fun x => ?_) (by ring)))
      (U.dx_eq (1 / U.T) (fun x => ?_) (by ring))
    · simp only [sc_v, pt_bnd]
      rw [Conv.V]
      ring
    · simp only [avg_sc, jumpN_sc]
      rw [Conv.V]
      ring
    · simp only [sc_v, sc_g, pt_cell]
      rw [Conv.V]
      field_simp
  · refine add_eq (sub_eq (sub_eq (sub_eq (U.dx_eq (1 / U.T) (fun x => sum_eq fun i => ?_) (by ring))
      (U.dSv_eq (U.L / U.T) (fun x => ?_) (by ring))) (U.dSh_eq (U.L / U.T) (fun x => ?_) (by ring)))
      (U.dsurf_eq (U.L / U.T) (fun x => ?_) (by ring)))
      (U.sideLoop_eq (U.L / U.T) (fun k x => ite_eq Iff.rfl (neg_eq ?_) zero_eq) (by ring))
    · simp only [vc_v, sc_g, pt_cell]
      rw [Conv.V]
      field_simp
    · rw [facetDiv_eq, Conv.V, mul_one]
    · rw [facetDiv_eq, Conv.V, mul_one]
    · simp only [sc_v, vc_v, pt_bnd]
      rw [Conv.V]
      ring
    · simp only [normalH_eq, sc_v, pt_bnd]
      rw [Conv.V]
      ring

theorem totalUv_eq (Q : ℝ) (F : Tracer3.Fields e) (u : Vc e.m) :
    Tracer3.totalUv (U.fields3 Q F) (U.vc U.V u) = U.vc U.V (Tracer3.totalUv F u) := by
  unfold Tracer3.totalUv Conv.fields3
  cases F.uvDav with
  | none => rfl
  | some d => exact funext fun i => U.sc_add U.V (u i) (d i)

theorem vertVelo_eq (Q : ℝ) (F : Tracer3.Fields e) (w : Sc e.m) :
    Tracer3.vertVelo (U.fields3 Q F) (U.sc U.V w) = U.sc U.V (Tracer3.vertVelo F w) := by
  unfold Tracer3.vertVelo Conv.fields3
  cases F.wMesh with
  | none => rfl
  | some d => exact U.sc_sub U.V w d

theorem unAv3_eq (u : Vc e.m) (x : e.m.S) : Tracer3.unAv (e := U.mesh3 e) (U.vc U.V u) x = U.V * Tracer3.unAv u x := by
  unfold Tracer3.unAv
  simp only [avg_vc]
  ring

theorem upwind3_eq (T : Tracer3.Term e) (a : ℝ) : Tracer3.upwind (U.term3 T) (U.V * a) = Tracer3.upwind T a := by
  unfold Tracer3.upwind
  rw [sgn_mul U.hV]
  rfl

theorem cUp_eq (T : Tracer3.Term e) (Q : ℝ) (c : Sc e.m) (a : ℝ) (x : e.m.S) :
    Tracer3.cUp (U.term3 T) (U.sc Q c) (U.V * a) x = Q * Tracer3.cUp T c a x := by
  unfold Tracer3.cUp
  rw [upwind3_eq]
  simp only [sc_v, pt_plus, pt_minus]
  ring

theorem bndFunctions3_eq (Q : ℝ) (f : Tracer3.BFuncs e) (x : e.m.B) (c : ℝ) (u : Fin 3 → ℝ) :
    Tracer3.bndFunctions (U.funcs3 Q f) x (Q * c) (fun i => U.V * u i) =
      (Tracer3.bndFunctions f x c u).map fun r => (Q * r.1, fun i => U.V * r.2 i) := by
  unfold Tracer3.bndFunctions Conv.funcs3
  cases f.value <;> cases f.uv <;> cases f.flux <;> cases f.un <;> simp [mul_assoc]

theorem bndF3_eq (Q : ℝ) (f : Tracer3.BFuncs e) (x : e.m.B) (c : ℝ) (u : Fin 3 → ℝ) :
    Tracer3.bndF (U.funcs3 Q f) x (Q * c) (fun i => U.V * u i) =
      (Q * (Tracer3.bndF f x c u).1, fun i => U.V * (Tracer3.bndF f x c u).2 i) := by
  unfold Tracer3.bndF
  rw [bndFunctions3_eq]
  cases Tracer3.bndFunctions f x c u <;> rfl

theorem sideTerm_eq (T : Tracer3.Term e) (Q : ℝ) (u : Vc e.m) (f : Option (Tracer3.BFuncs e)) (c test : Sc e.m) (x : e.m.B) :
    Tracer3.sideTerm (U.term3 T) (U.vc U.V u) (f.map (U.funcs3 Q)) (U.sc Q c) (U.sc 1 test) x =
      Q * U.V * Tracer3.sideTerm T u f c test x := by
  have hu : ∀ a b n n' u u' : ℝ, n * (1 / 2 * (U.V * a + U.V * b)) + n' * (1 / 2 * (U.V * u + U.V * u')) =
      U.V * (n * (1 / 2 * (a + b)) + n' * (1 / 2 * (u + u'))) := fun a b n n' u u' => by ring
  cases f with
  | none => exact zero_eq
  | some f =>
    simp only [Tracer3.sideTerm, Option.map_some, Tracer3.sideFlux, vc_v, sc_v, pt_bnd, bndF3_eq, hu, upwind3_eq,
      normalH_eq]
    ring

/-- C141: horizontal advection of a tracer in 3D. -/
theorem C141_tracer3_horizontal (T : Tracer3.Term e) (Q : ℝ) (F : Tracer3.Fields e) (bc : ℕ → Option (Tracer3.BFuncs e))
    (c test : Sc e.m) :
    Tracer3.hAdvection (U.term3 T) (U.fields3 Q F) (fun k => (bc k).map (U.funcs3 Q)) (U.sc Q c) (U.sc 1 test) =
      U.L ^ 3 * Q / U.T * Tracer3.hAdvection T F bc c test := by
  have := U.hL.ne'
  have := U.hT.ne'
  unfold Tracer3.hAdvection
  cases h : F.uv with
  | none =>
    rw [show (U.fields3 Q F).uv = none by simp [Conv.fields3, h]]
    exact zero_eq
  | some u =>
    rw [show (U.fields3 Q F).uv = some (U.vc U.V u) by simp [Conv.fields3, h]]
    simp only [totalUv_eq]
    generalize Tracer3.totalUv F u = u
    have hc : ∀ x : e.m.S, Tracer3.cUp (U.term3 T) (U.sc Q c) (Tracer3.unAv (e := U.mesh3 e) (U.vc U.V u) x) x *
        facetDiv (e := U.mesh3 e) (U.vc U.V u) (U.sc 1 test) x =
        U.L * Q / U.T * (Tracer3.cUp T c (Tracer3.unAv u x) x * facetDiv u test x) := by
      intro x
      rw [unAv3_eq, cUp_eq, facetDiv_eq, Conv.V]
      ring
    have hl : ∀ x : e.m.S, 1 / 2 * |Tracer3.unAv (e := U.mesh3 e) (U.vc U.V u) x| * F.lfFactor *
        (jump (m := U.mesh e.m) (U.sc 1 test) x * jump (m := U.mesh e.m) (U.sc Q c) x) =
        U.L * Q / U.T * (1 / 2 * |Tracer3.unAv u x| * F.lfFactor * (jump test x * jump c x)) := by
      intro x
      rw [unAv3_eq, abs_mul_pos U.hV, jump_sc, jump_sc, Conv.V]
      ring
    refine neg_eq (add_eq (add_eq (U.dx_eq (Q / U.T) (fun x => neg_eq ?_) (by ring))
      (ite_eq Iff.rfl (add_eq (add_eq (add_eq (U.dSv_eq _ hc (by ring)) (U.dSh_eq _ hc (by ring)))
        (ite_eq Iff.rfl (add_eq (U.dSv_eq _ hl (by ring)) (U.dSh_eq _ hl (by ring))) zero_eq))
        (U.sideLoop_eq (U.L * Q / U.T) (fun k x => ?_) (by ring))) zero_eq))
      (ite_eq Iff.rfl (U.dsurf_eq (U.L * Q / U.T) (fun x => ?_) (by ring)) zero_eq))
    · simp only [vc_v, sc_v, sc_g, pt_cell, Fin.sum_univ_three]
      rw [Conv.V]
      field_simp
    · rw [sideTerm_eq, Conv.V]
      ring
    · rw [normalH_eq]
      simp only [sc_v, pt_bnd]
      rw [Conv.V]
      ring

/-- C141: vertical advection of a tracer in 3D. -/
theorem C141_tracer3_vertical (T : Tracer3.Term e) (Q : ℝ) (F : Tracer3.Fields e) (c test : Sc e.m) :
    Tracer3.vAdvection (U.term3 T) (U.fields3 Q F) (U.sc Q c) (U.sc 1 test) =
      U.L ^ 3 * Q / U.T * Tracer3.vAdvection T F c test := by
  have := U.hL.ne'
  have := U.hT.ne'
  unfold Tracer3.vAdvection
  cases h : F.w with
  | none =>
    rw [show (U.fields3 Q F).w = none by simp [Conv.fields3, h]]
    exact zero_eq
  | some w =>
    rw [show (U.fields3 Q F).w = some (U.sc U.V w) by simp [Conv.fields3, h]]
    simp only [vertVelo_eq]
    generalize Tracer3.vertVelo F w = w
    refine neg_eq (add_eq (add_eq (U.dx_eq (Q / U.T) (fun x => neg_eq ?_) (by ring))
      (ite_eq Iff.rfl (add_eq (U.dSh_eq (U.L * Q / U.T) (fun x => ?_) (by ring))
        (ite_eq Iff.rfl (U.dSh_eq (U.L * Q / U.T) (fun x => ?_) (by ring)) zero_eq)) zero_eq))
      (U.dsurf_eq (U.L * Q / U.T) (fun x => ?_) (by ring)))
    · simp only [sc_v, sc_g, pt_cell]
      rw [Conv.V]
      field_simp
    · simp only [avg_sc, jumpN_sc, mul_assoc U.V, cUp_eq]
      rw [Conv.V]
      ring
    · rw [show (U.fields3 Q F).lfFactor = F.lfFactor from rfl]
      simp only [avg_sc, jump_sc, mul_assoc U.V, abs_mul_pos U.hV]
      rw [Conv.V]
      ring
    · simp only [sc_v, pt_bnd]
      rw [Conv.V]
      ring

theorem sigmaH_eq (T : Tracer3.Term e) (x : e.m.S) : Tracer3.sigmaH (U.term3 T) x = 1 / U.L * Tracer3.sigmaH T x := by
  have := U.hL.ne'
  have h : ∀ c a v : ℝ, c * (U.L ^ (3 - 1) * a) / (U.L ^ 3 * v) = 1 / U.L * (c * a / v) := by
    intro c a v
    rw [show 3 - 1 = 2 from rfl]
    field_simp
  unfold Tracer3.sigmaH
  simp only [h]
  exact ite_max (one_div_pos.mpr U.hL) _ _

theorem sigmaV_eq (T : Tracer3.Term e) (x : e.m.S) : Tracer3.sigmaV (U.term3 T) x = 1 / U.L * Tracer3.sigmaV T x := by
  have := U.hL.ne'
  have h : ∀ s c a v : ℝ, 1 * s * c / (U.L ^ 3 * v / (U.L ^ (3 - 1) * a)) = 1 / U.L * (s * c / (v / a)) := by
    intro s c a v
    rw [show 3 - 1 = 2 from rfl]
    field_simp
  unfold Tracer3.sigmaV
  rw [show (U.term3 T).sipgV = U.sc 1 T.sipgV from rfl]
  simp only [sc_v, pt_plus, pt_minus, h]
  exact ite_max (one_div_pos.mpr U.hL) _ _

/-- C141: diffusion of a tracer in 3D. -/
theorem C141_tracer3_diffusion (T : Tracer3.Term e) (Q : ℝ) (F : Tracer3.Fields e) (c test : Sc e.m) :
    Tracer3.hDiffusion (U.term3 T) (U.fields3 Q F) (U.sc Q c) (U.sc 1 test) =
      U.L ^ 3 * Q / U.T * Tracer3.hDiffusion T F c test ∧
    Tracer3.vDiffusion (U.term3 T) (U.fields3 Q F) (U.sc Q c) (U.sc 1 test) =
      U.L ^ 3 * Q / U.T * Tracer3.vDiffusion T F c test := by
  have := U.hL.ne'
  have := U.hT.ne'
  constructor
  · unfold Tracer3.hDiffusion
    cases h : F.diffH with
    | none =>
      rw [show (U.fields3 Q F).diffH = none by simp [Conv.fields3, h]]
      exact zero_eq
    | some mu =>
      rw [show (U.fields3 Q F).diffH = some (U.sc (U.L ^ 2 / U.T) mu) by simp [Conv.fields3, h]]
      refine neg_eq (add_eq (add_eq (add_eq (U.dx_eq (Q / U.T) (fun x => ?_) (by ring))
        (ite_eq Iff.rfl (U.dS_eq (U.L * Q / U.T) (fun x => ?_) (by ring)) zero_eq))
        (U.dbottom_eq (U.L * Q / U.T) (fun x => neg_eq ?_) (by ring)))
        (U.dsurf_eq (U.L * Q / U.T) (fun x => neg_eq ?_) (by ring)))
      · simp only [sc_v, sc_g, pt_cell]
        field_simp
      · simp only [sigmaH_eq, jumpN_sc, avg_sc, sc_v, sc_g, pt_plus, pt_minus, show (U.term3 T).sipg = T.sipg from rfl]
        field_simp
      · simp only [sc_v, sc_g, pt_bnd]
        field_simp
      · simp only [sc_v, sc_g, pt_bnd]
        field_simp
  · unfold Tracer3.vDiffusion
    cases h : F.diffV with
    | none =>
      rw [show (U.fields3 Q F).diffV = none by simp [Conv.fields3, h]]
      exact zero_eq
    | some mu =>
      rw [show (U.fields3 Q F).diffV = some (U.sc (U.L ^ 2 / U.T) mu) by simp [Conv.fields3, h]]
      refine neg_eq (add_eq (U.dx_eq (Q / U.T) (fun x => ?_) (by ring))
        (ite_eq Iff.rfl (U.dSh_eq (U.L * Q / U.T) (fun x => ?_) (by ring)) zero_eq))
      · simp only [sc_v, sc_g, pt_cell]
        field_simp
      · simp only [sigmaV_eq, jumpN_sc, avg_sc, sc_v, sc_g, pt_plus, pt_minus]
        field_simp

/-- C141: the tracer equation in 3D. -/
theorem C141_tracer3 (T : Tracer3.Term e) (Q : ℝ) (F : Tracer3.Fields e) (bc : ℕ → Option (Tracer3.BFuncs e))
    (c test : Sc e.m) :
    Tracer3.residual (U.term3 T) (U.fields3 Q F) (fun k => (bc k).map (U.funcs3 Q)) (U.sc Q c) (U.sc 1 test) =
      U.L ^ 3 * Q / U.T * Tracer3.residual T F bc c test := by
  unfold Tracer3.residual
  refine add_eq (add_eq (add_eq (add_eq (C141_tracer3_horizontal ..) (C141_tracer3_vertical ..))
    (C141_tracer3_diffusion ..).1) (C141_tracer3_diffusion ..).2) ?_
  unfold Tracer3.source Conv.fields3
  cases F.source with
  | none => exact zero_eq
  | some r =>
    refine U.dx_eq (Q / U.T) (fun x => ?_) (by ring)
    simp only [sc_v, pt_cell]
    ring

end Verif.Unit
