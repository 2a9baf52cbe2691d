import Verif.Unit.Props3
import Verif.Mom3.Model

/-!
C141 for the 3D momentum equation and the internal pressure gradient.
-/

namespace Verif.Unit

open Verif.Dg Verif.Ext

variable {e : Mesh3}

namespace Conv

variable (U : Conv)

/-- Members and options of the terms of the momentum equation. -/
noncomputable def momTerm (T : Mom3.Term e) : Mom3.Term (U.mesh3 e) :=
  { hdg := T.hdg, vdg := T.vdg, nonlinear := T.nonlinear, lf := T.lf, friction := T.friction, sipg := T.sipg,
    sipgV := U.sc 1 T.sipgV, p := T.p, q := T.q, triangle := T.triangle, bath := U.sc U.L T.bath, elemH := U.sc U.L T.elemH,
    blen := fun k => U.L * T.blen k, z := T.z, kappa := T.kappa, rho0 := U.R * T.rho0, g := U.L / U.T ^ 2 * T.g }

/-- The fields that the terms read. -/
noncomputable def momFields (F : Mom3.Fields e) : Mom3.Fields (U.mesh3 e) :=
  { uvDav := F.uvDav.map (U.vc U.V), eta := U.sc U.L F.eta, w := F.w.map (U.sc U.V), wMesh := F.wMesh.map (U.sc U.V),
    lfFactor := F.lfFactor, viscH := F.viscH.map (U.sc (U.L ^ 2 / U.T)), viscV := F.viscV.map (U.sc (U.L ^ 2 / U.T)),
    drag := F.drag.map (U.sc 1), roughness := F.roughness.map (U.sc U.L), linDrag := F.linDrag.map (U.sc (1 / U.T)),
    coriolis := F.coriolis.map (U.sc (1 / U.T)), source := F.source.map (U.vc (U.L / U.T ^ 2)),
    wind := F.wind.map (U.vc (U.R * U.V ^ 2)), intPg := F.intPg.map (U.vc (U.L / U.T ^ 2)) }

/-- The entry of a boundary: the baroclinic head is a length. -/
noncomputable def momFuncs (f : Mom3.BFuncs e) : Mom3.BFuncs (U.mesh3 e) where
  symm := f.symm
  uv := f.uv.map fun a x i => U.V * a x i
  un := f.un.map fun a x => U.V * a x
  flux := f.flux.map fun a x => U.L ^ 3 / U.T * a x
  barocHead := f.barocHead.map fun a x => U.L * a x

end Conv

open Conv

variable (U : Conv)

theorem h2_eq {K : ℝ} {f g : Fin 3 → ℝ} (h : ∀ i, f i = K * g i) : Mom3.h2 f = K * Mom3.h2 g := by
  unfold Mom3.h2
  rw [h, h, mul_add]

theorem mom_total_eq (F : Mom3.Fields e) (u : Vc e.m) :
    Mom3.total (U.momFields F) (U.vc U.V u) = U.vc U.V (Mom3.total F u) := by
  unfold Mom3.total Conv.momFields
  cases F.uvDav with
  | none => rfl
  | some d => exact funext fun i => U.sc_add U.V (u i) (d i)

theorem mom_vertVelo_eq (F : Mom3.Fields e) (w : Sc e.m) :
    Mom3.vertVelo (U.momFields F) (U.sc U.V w) = U.sc U.V (Mom3.vertVelo F w) := by
  unfold Mom3.vertVelo Conv.momFields
  cases F.wMesh with
  | none => rfl
  | some d => exact U.sc_sub U.V w d

theorem mom_unAv_eq (u : Vc e.m) (x : e.m.S) : Mom3.unAv (e := U.mesh3 e) (U.vc U.V u) x = U.V * Mom3.unAv u x := by
  unfold Mom3.unAv
  refine h2_eq fun i => ?_
  rw [avg_vc, mul_assoc]

theorem mom_upwind_eq (T : Mom3.Term e) (a : ℝ) : Mom3.upwind (U.momTerm T) (U.V * a) = Mom3.upwind T a := by
  unfold Mom3.upwind
  rw [sgn_mul U.hV]
  rfl

theorem uvUp_eq (T : Mom3.Term e) (u : Vc e.m) (i : Fin 3) (a : ℝ) (x : e.m.S) :
    Mom3.uvUp (U.momTerm T) (U.vc U.V u i) (U.V * a) x = U.V * Mom3.uvUp T (u i) a x := by
  unfold Mom3.uvUp
  rw [mom_upwind_eq]
  simp only [vc_v, pt_plus, pt_minus]
  ring

theorem extUv_eq (T : Mom3.Term e) (F : Mom3.Fields e) (f : Mom3.BFuncs e) (k : ℕ) (u : Vc e.m) (x : e.m.B) :
    Mom3.extUv (U.momTerm T) (U.momFields F) (U.momFuncs f) k (U.vc U.V u) x =
      (Mom3.extUv T F f k u x).map fun r i => U.V * r i := by
  have hL := U.hL.ne'
  have hT := U.hT.ne'
  have hq : ∀ n q a b l : ℝ, n * (U.L ^ 3 / U.T * q / (U.L * a + U.L * b) / (U.L * l)) = U.V * (n * (q / (a + b) / l)) := by
    intro n q a b l
    rw [← mul_add, Conv.V]
    field_simp
  unfold Mom3.extUv
  rw [show (U.momFuncs f).symm = f.symm from rfl]
  by_cases hs : f.symm = true
  · rw [if_pos hs, if_pos hs]
    rfl
  · rw [if_neg hs, if_neg hs]
    unfold Conv.momFuncs
    cases f.uv with
    | some a => rfl
    | none =>
      cases f.un with
      | some a => exact congrArg some (funext fun i => by ring)
      | none =>
        cases f.flux with
        | some q => exact congrArg some (funext fun i => hq _ _ _ _ _)
        | none => rfl

theorem extF_eq (T : Mom3.Term e) (F : Mom3.Fields e) (f : Mom3.BFuncs e) (k : ℕ) (u : Vc e.m) (x : e.m.B) :
    Mom3.extF (U.momTerm T) (U.momFields F) (U.momFuncs f) k (U.vc U.V u) x = fun i => U.V * Mom3.extF T F f k u x i := by
  unfold Mom3.extF
  rw [extUv_eq]
  cases Mom3.extUv T F f k u x <;> rfl

theorem wall_eq (T : Mom3.Term e) (F : Mom3.Fields e) (u test : Vc e.m) (x : e.m.B) :
    Mom3.wall (U.momTerm T) (U.momFields F) (U.vc U.V u) (U.vc 1 test) x = U.V ^ 2 * Mom3.wall T F u test x := by
  unfold Mom3.wall
  refine ite_eq Iff.rfl ?_ zero_eq
  have hn : ∑ i, (U.vc U.V u i (.bnd x)).v * e.m.nb x i = U.V * ∑ i, (u i (.bnd x)).v * e.m.nb x i :=
    sum_eq fun i => by simp only [vc_v, pt_bnd]; ring
  have hn' : ∑ i, (U.vc U.V u i (.bnd x)).v * (U.mesh3 e).m.nb x i = U.V * ∑ i, (u i (.bnd x)).v * e.m.nb x i := hn
  rw [hn', abs_mul_pos U.hV, show (U.momFields F).lfFactor = F.lfFactor from rfl]
  unfold Mom3.h2
  simp only [vc_v, pt_bnd]
  ring

theorem openSide_eq (T : Mom3.Term e) (F : Mom3.Fields e) (f : Mom3.BFuncs e) (k : ℕ) (u test : Vc e.m) (x : e.m.B) :
    Mom3.openSide (U.momTerm T) (U.momFields F) (U.momFuncs f) k (U.vc U.V u) (U.vc 1 test) x =
      U.V ^ 2 * Mom3.openSide T F f k u test x := by
  have hu : ∀ a b n n' u u' : ℝ, 1 / 2 * (U.V * a + U.V * b) * n + 1 / 2 * (U.V * u + U.V * u') * n' =
      U.V * (1 / 2 * (a + b) * n + 1 / 2 * (u + u') * n') := fun a b n n' u u' => by ring
  unfold Mom3.openSide
  simp only [extF_eq, vc_v, pt_bnd, hu, mom_upwind_eq, Mom3.h2]
  ring

theorem mom_sideTerm_eq (T : Mom3.Term e) (F : Mom3.Fields e) (f : Option (Mom3.BFuncs e)) (k : ℕ) (u test : Vc e.m)
    (x : e.m.B) : Mom3.sideTerm (U.momTerm T) (U.momFields F) (f.map U.momFuncs) k (U.vc U.V u) (U.vc 1 test) x =
      U.V ^ 2 * Mom3.sideTerm T F f k u test x := by
  cases f with
  | none => exact wall_eq ..
  | some f => exact openSide_eq ..

/-- C141: horizontal advection of momentum in 3D. -/
theorem C141_momentum3_horizontal (T : Mom3.Term e) (F : Mom3.Fields e) (bc : ℕ → Option (Mom3.BFuncs e))
    (sol old test : Vc e.m) :
    Mom3.hAdvection (U.momTerm T) (U.momFields F) (fun k => (bc k).map U.momFuncs) (U.vc U.V sol) (U.vc U.V old)
      (U.vc 1 test) = U.L ^ 4 / U.T ^ 2 * Mom3.hAdvection T F bc sol old test := by
  have := U.hL.ne'
  have := U.hT.ne'
  unfold Mom3.hAdvection
  refine ite_eq Iff.rfl ?_ zero_eq
  simp only [mom_total_eq]
  generalize Mom3.total F sol = u
  generalize Mom3.total F old = uo
  have hc : ∀ x : e.m.S, (Mom3.h2 fun i => Mom3.h2 fun j => Mom3.uvUp (U.momTerm T) (U.vc U.V u i)
      (Mom3.unAv (e := U.mesh3 e) (U.vc U.V uo) x) x * avg (m := U.mesh e.m) (U.vc U.V uo j) x *
        jumpN (m := U.mesh e.m) (U.vc 1 test i) x j) = U.L ^ 2 / U.T ^ 2 * Mom3.h2 fun i => Mom3.h2 fun j =>
      Mom3.uvUp T (u i) (Mom3.unAv uo x) x * avg (uo j) x * jumpN (test i) x j := by
    intro x
    refine h2_eq fun i => h2_eq fun j => ?_
    rw [mom_unAv_eq, uvUp_eq, avg_vc, jumpN_vc, Conv.V]
    field_simp
  have hl : ∀ x : e.m.S, (1 / 2 * |Mom3.unAv (e := U.mesh3 e) (U.vc U.V uo) x| * F.lfFactor * Mom3.h2 fun i =>
      jump (m := U.mesh e.m) (U.vc 1 test i) x * jump (m := U.mesh e.m) (U.vc U.V u i) x) =
      U.L ^ 2 / U.T ^ 2 * (1 / 2 * |Mom3.unAv uo x| * F.lfFactor * Mom3.h2 fun i => jump (test i) x * jump (u i) x) := by
    intro x
    rw [mom_unAv_eq, abs_mul_pos U.hV]
    simp only [Mom3.h2, jump_vc]
    rw [Conv.V]
    field_simp
  refine neg_eq (add_eq (add_eq (U.dx_eq (U.L / U.T ^ 2) (fun x => neg_eq (h2_eq fun i => h2_eq fun j => ?_)) (by ring))
    (ite_eq Iff.rfl (add_eq (add_eq (add_eq (U.dSv_eq _ hc (by ring)) (U.dSh_eq _ hc (by ring)))
      (ite_eq Iff.rfl (add_eq (U.dSv_eq _ hl (by ring)) (U.dSh_eq _ hl (by ring))) zero_eq))
      (U.sideLoop_eq (U.L ^ 2 / U.T ^ 2) (fun k x => ?_) (by ring))) zero_eq))
    (U.dsurf_eq (U.L ^ 2 / U.T ^ 2) (fun x => h2_eq fun i => h2_eq fun j => ?_) (by ring)))
  · simp only [vc_v, vc_g, pt_cell]
    rw [Conv.V]
    field_simp
  · rw [mom_sideTerm_eq, Conv.V, div_pow]
  · simp only [vc_v, pt_bnd]
    rw [Conv.V]
    field_simp

/-- C141: vertical advection of momentum in 3D. -/
theorem C141_momentum3_vertical (T : Mom3.Term e) (F : Mom3.Fields e) (sol test : Vc e.m) :
    Mom3.vAdvection (U.momTerm T) (U.momFields F) (U.vc U.V sol) (U.vc 1 test) =
      U.L ^ 4 / U.T ^ 2 * Mom3.vAdvection T F sol test := by
  have := U.hL.ne'
  have := U.hT.ne'
  unfold Mom3.vAdvection
  cases h : F.w with
  | none =>
    rw [show (U.momFields F).w = none by simp [Conv.momFields, h]]
    exact zero_eq
  | some w =>
    rw [show (U.momFields F).w = some (U.sc U.V w) by simp [Conv.momFields, h]]
    refine ite_eq Iff.rfl ?_ zero_eq
    simp only [mom_total_eq, mom_vertVelo_eq]
    generalize Mom3.total F sol = u
    generalize Mom3.vertVelo F w = w
    refine neg_eq (add_eq (add_eq (U.dx_eq (U.L / U.T ^ 2) (fun x => neg_eq (h2_eq fun i => ?_)) (by ring))
      (ite_eq Iff.rfl (add_eq (U.dSh_eq (U.L ^ 2 / U.T ^ 2) (fun x => h2_eq fun i => ?_) (by ring))
        (ite_eq Iff.rfl (U.dSh_eq (U.L ^ 2 / U.T ^ 2) (fun x => ?_) (by ring)) zero_eq)) zero_eq))
      (U.dsurf_eq (U.L ^ 2 / U.T ^ 2) (fun x => h2_eq fun i => ?_) (by ring)))
    · simp only [sc_v, vc_v, vc_g, pt_cell]
      rw [Conv.V]
      field_simp
    · simp only [avg_sc, jumpN_vc, mul_assoc U.V, uvUp_eq]
      rw [Conv.V]
      field_simp
    · rw [show (U.momFields F).lfFactor = F.lfFactor from rfl]
      simp only [avg_sc, jump_vc, mul_assoc U.V, abs_mul_pos U.hV, Mom3.h2]
      rw [Conv.V]
      field_simp
    · simp only [sc_v, vc_v, pt_bnd]
      rw [Conv.V]
      field_simp

theorem mom_sigmaH_eq (T : Mom3.Term e) (x : e.m.S) : Mom3.sigmaH (U.momTerm T) x = 1 / U.L * Mom3.sigmaH T x := by
  have := U.hL.ne'
  have h : ∀ c a v : ℝ, c * (U.L ^ (3 - 1) * a) / (U.L ^ 3 * v) = 1 / U.L * (c * a / v) := by
    intro c a v
    rw [show 3 - 1 = 2 from rfl]
    field_simp
  unfold Mom3.sigmaH
  simp only [h]
  refine (congrArg (T.sipg * ·) (ite_max (one_div_pos.mpr U.hL) _ _)).trans ?_
  exact mul_left_comm _ _ _

theorem mom_sigmaV_eq (T : Mom3.Term e) (x : e.m.S) : Mom3.sigmaV (U.momTerm T) x = 1 / U.L * Mom3.sigmaV T x := by
  have := U.hL.ne'
  have h : ∀ s c a v : ℝ, 1 * s * c / (U.L ^ 3 * v / (U.L ^ (3 - 1) * a)) = 1 / U.L * (s * c / (v / a)) := by
    intro s c a v
    rw [show 3 - 1 = 2 from rfl]
    field_simp
  unfold Mom3.sigmaV
  rw [show (U.momTerm T).sipgV = U.sc 1 T.sipgV from rfl]
  simp only [sc_v, pt_plus, pt_minus, h]
  exact ite_max (one_div_pos.mpr U.hL) _ _

theorem avgStress_eq (k l : ℝ) (mu : Sc e.m) (v : Vc e.m) (c : Fin 3) (x : e.m.S) (i : Fin 3) :
    Mom3.avgStress (e := U.mesh3 e) (U.sc k mu) (U.vc l v c) x i = k * l / U.L * Mom3.avgStress mu (v c) x i := by
  unfold Mom3.avgStress
  simp only [sc_v, vc_g, pt_plus, pt_minus]
  ring

/-- C141: viscosity in 3D. -/
theorem C141_momentum3_viscosity (T : Mom3.Term e) (F : Mom3.Fields e) (sol test : Vc e.m) :
    Mom3.hViscosity (U.momTerm T) (U.momFields F) (U.vc U.V sol) (U.vc 1 test) =
      U.L ^ 4 / U.T ^ 2 * Mom3.hViscosity T F sol test ∧
    Mom3.vViscosity (U.momTerm T) (U.momFields F) (U.vc U.V sol) (U.vc 1 test) =
      U.L ^ 4 / U.T ^ 2 * Mom3.vViscosity T F sol test := by
  have := U.hL.ne'
  have := U.hT.ne'
  constructor
  · unfold Mom3.hViscosity
    cases h : F.viscH with
    | none =>
      rw [show (U.momFields F).viscH = none by simp [Conv.momFields, h]]
      exact zero_eq
    | some mu =>
      rw [show (U.momFields F).viscH = some (U.sc (U.L ^ 2 / U.T) mu) by simp [Conv.momFields, h]]
      simp only [mom_total_eq]
      generalize Mom3.total F sol = u
      have hs : ∀ x : e.m.B, (Mom3.h2 fun i => Mom3.h2 fun j => (U.sc (U.L ^ 2 / U.T) mu (.bnd x)).v *
          (U.vc U.V u i (.bnd x)).g j * ((U.vc 1 test i (.bnd x)).v * e.m.nb x j)) = U.L ^ 2 / U.T ^ 2 *
          Mom3.h2 fun i => Mom3.h2 fun j => (mu (.bnd x)).v * (u i (.bnd x)).g j * ((test i (.bnd x)).v * e.m.nb x j) := by
        intro x
        refine h2_eq fun i => h2_eq fun j => ?_
        simp only [sc_v, vc_v, vc_g, pt_bnd]
        rw [Conv.V]
        field_simp
      refine neg_eq (add_eq (add_eq (add_eq (U.dx_eq (U.L / U.T ^ 2) (fun x => h2_eq fun i => h2_eq fun j => ?_) (by ring))
        (ite_eq Iff.rfl (U.dS_eq (U.L ^ 2 / U.T ^ 2) (fun x => sum_eq fun c => ?_) (by ring)) zero_eq))
        (U.dsurf_eq (U.L ^ 2 / U.T ^ 2) (fun x => neg_eq (hs x)) (by ring)))
        (U.dbottom_eq (U.L ^ 2 / U.T ^ 2) (fun x => neg_eq (hs x)) (by ring)))
      · simp only [sc_v, vc_g, pt_cell]
        rw [Conv.V]
        field_simp
      · simp only [mom_sigmaH_eq, jumpN_vc, avg_sc, avgStress_eq, Mom3.h2]
        rw [Conv.V]
        field_simp
  · unfold Mom3.vViscosity
    cases h : F.viscV with
    | none =>
      rw [show (U.momFields F).viscV = none by simp [Conv.momFields, h]]
      exact zero_eq
    | some mu =>
      rw [show (U.momFields F).viscV = some (U.sc (U.L ^ 2 / U.T) mu) by simp [Conv.momFields, h]]
      refine neg_eq (add_eq (U.dx_eq (U.L / U.T ^ 2) (fun x => sum_eq fun c => ?_) (by ring))
        (ite_eq Iff.rfl (U.dSh_eq (U.L ^ 2 / U.T ^ 2) (fun x => sum_eq fun c => ?_) (by ring)) zero_eq))
      · simp only [sc_v, vc_g, pt_cell]
        rw [Conv.V]
        field_simp
      · simp only [mom_sigmaV_eq, jumpN_vc, avg_sc, avgStress_eq]
        rw [Conv.V]
        field_simp

/-- The drag coefficient is a pure number. -/
theorem dragAt_eq (T : Mom3.Term e) (F : Mom3.Fields e) (x : e.m.B) :
    Mom3.dragAt (U.momTerm T) (U.momFields F) x = Mom3.dragAt T F x := by
  have hL := U.hL.ne'
  have hd : ∀ h z : ℝ, Mom3.dragDenom (U.L * h) (U.L * z) = U.L * Mom3.dragDenom h z := by
    intro h z
    unfold Mom3.dragDenom
    rw [← mul_add, mul_div_mul_left _ _ hL]
    ring
  unfold Mom3.dragAt Conv.momFields
  cases F.drag with
  | some d => simp
  | none =>
    cases F.roughness with
    | none => rfl
    | some z0 =>
      change some ((T.kappa * (U.L * _) / Mom3.dragDenom (U.L * _) (U.L * _)) ^ 2) = _
      rw [hd]
      refine congrArg some (congrArg (· ^ 2) ?_)
      rw [mul_left_comm, mul_div_mul_left _ _ hL]
      rfl

/-- C141: the forces in 3D. -/
theorem C141_momentum3_forces (T : Mom3.Term e) (F : Mom3.Fields e) (sol old test : Vc e.m) :
    Mom3.pressureGradient (U.momFields F) (U.vc 1 test) = U.L ^ 4 / U.T ^ 2 * Mom3.pressureGradient F test ∧
    Mom3.bottomFriction (U.momTerm T) (U.momFields F) (U.vc U.V sol) (U.vc U.V old) (U.vc 1 test) =
      U.L ^ 4 / U.T ^ 2 * Mom3.bottomFriction T F sol old test ∧
    Mom3.linearDrag (U.momFields F) (U.vc U.V sol) (U.vc 1 test) = U.L ^ 4 / U.T ^ 2 * Mom3.linearDrag F sol test ∧
    Mom3.coriolis (U.momFields F) (U.vc U.V sol) (U.vc 1 test) = U.L ^ 4 / U.T ^ 2 * Mom3.coriolis F sol test ∧
    Mom3.source (U.momTerm T) (U.momFields F) (U.vc 1 test) = U.L ^ 4 / U.T ^ 2 * Mom3.source T F test := by
  have := U.hL.ne'
  have := U.hT.ne'
  have := U.hR.ne'
  refine ⟨?_, ?_, ?_, ?_, ?_⟩
  · unfold Mom3.pressureGradient Conv.momFields
    cases F.intPg with
    | none => exact zero_eq
    | some pg =>
      refine neg_eq (U.dx_eq (U.L / U.T ^ 2) (fun x => h2_eq fun i => ?_) (by ring))
      simp only [vc_v, pt_cell]
      ring
  · unfold Mom3.bottomFriction
    refine ite_eq Iff.rfl (neg_eq (U.dbottom_eq (U.L ^ 2 / U.T ^ 2) (fun x => ?_) (by ring))) zero_eq
    have hq : ∀ a b : ℝ, (U.V * a) ^ 2 + (U.V * b) ^ 2 = U.V * U.V * (a ^ 2 + b ^ 2) := fun a b => by ring
    rw [dragAt_eq]
    simp only [mom_total_eq, vc_v, pt_bnd, hq, sqrt_mul_sq U.hV.le, Mom3.h2]
    rw [Conv.V]
    field_simp
  · unfold Mom3.linearDrag
    cases h : F.linDrag with
    | none =>
      rw [show (U.momFields F).linDrag = none by simp [Conv.momFields, h]]
      exact zero_eq
    | some c =>
      rw [show (U.momFields F).linDrag = some (U.sc (1 / U.T) c) by simp [Conv.momFields, h]]
      refine neg_eq (U.dx_eq (U.L / U.T ^ 2) (fun x => ?_) (by ring))
      simp only [mom_total_eq, vc_v, sc_v, pt_cell, Fin.sum_univ_three]
      rw [Conv.V]
      field_simp
  · unfold Mom3.coriolis Conv.momFields
    cases F.coriolis with
    | none => exact zero_eq
    | some c =>
      refine neg_eq (U.dx_eq (U.L / U.T ^ 2) (fun x => ?_) (by ring))
      simp only [vc_v, sc_v, pt_cell]
      rw [Conv.V]
      field_simp
  · unfold Mom3.source
    refine add_eq ?_ ?_
    · unfold Mom3.windStress Conv.momFields
      cases F.viscV with
      | none => exact zero_eq
      | some mu =>
        cases F.wind with
        | none => exact zero_eq
        | some tau =>
          refine U.dsurf_eq (U.L ^ 2 / U.T ^ 2) (fun x => ?_) (by ring)
          rw [show (U.momTerm T).rho0 = U.R * T.rho0 from rfl]
          simp only [vc_v, pt_bnd, Mom3.h2]
          rw [Conv.V]
          field_simp
    · unfold Conv.momFields
      cases F.source with
      | none => exact zero_eq
      | some r =>
        refine U.dx_eq (U.L / U.T ^ 2) (fun x => sum_eq fun i => ?_) (by ring)
        simp only [vc_v, pt_cell]
        ring

/-- C141: the momentum equation in 3D. -/
theorem C141_momentum3 (T : Mom3.Term e) (F : Mom3.Fields e) (bc : ℕ → Option (Mom3.BFuncs e)) (sol old test : Vc e.m) :
    Mom3.residual (U.momTerm T) (U.momFields F) (fun k => (bc k).map U.momFuncs) (U.vc U.V sol) (U.vc U.V old)
      (U.vc 1 test) = U.L ^ 4 / U.T ^ 2 * Mom3.residual T F bc sol old test := by
  obtain ⟨h1, h2, h3, h4, h5⟩ := C141_momentum3_forces U T F sol old test
  obtain ⟨h6, h7⟩ := C141_momentum3_viscosity U T F sol test
  unfold Mom3.residual
  rw [h1, h2, h3, h4, h5, h6, h7, C141_momentum3_horizontal, C141_momentum3_vertical]
  ring

/-- C141: the internal pressure gradient; the baroclinic head is a length. -/
theorem C141_internal_pressure (T : Mom3.Term e) (dg : Bool) (scalar : Option ℝ) (bc : ℕ → Option (Mom3.BFuncs e))
    (r : Sc e.m) (test : Vc e.m) :
    Mom3.intPgForm (U.momTerm T) dg scalar (fun k => (bc k).map U.momFuncs) (U.sc U.L r) (U.vc 1 test) =
      U.L ^ 4 / U.T ^ 2 * Mom3.intPgForm T dg scalar bc r test := by
  have := U.hL.ne'
  have := U.hT.ne'
  have hh : ∀ k x, Mom3.headSide (e := U.mesh3 e) ((bc k).map U.momFuncs) (U.sc U.L r) x = U.L * Mom3.headSide (bc k) r x := by
    intro k x
    unfold Mom3.headSide
    cases bc k with
    | none => rfl
    | some f =>
      simp only [Option.map_some, Conv.momFuncs]
      cases f.barocHead with
      | none => rfl
      | some a =>
        simp only [Option.map_some, sc_v, pt_bnd]
        ring
  have hc : ∀ x : e.m.S, (U.L / U.T ^ 2 * T.g * avg (m := U.mesh e.m) (U.sc U.L r) x * Mom3.h2 fun i =>
      jumpN (m := U.mesh e.m) (U.vc 1 test i) x i) =
      U.L ^ 2 / U.T ^ 2 * (T.g * avg r x * Mom3.h2 fun i => jumpN (test i) x i) := by
    intro x
    simp only [avg_sc, jumpN_vc, Mom3.h2]
    ring
  have hb : ∀ x : e.m.B, (U.L / U.T ^ 2 * T.g * (U.sc U.L r (.bnd x)).v * Mom3.h2 fun i =>
      e.m.nb x i * (U.vc 1 test i (.bnd x)).v) =
      U.L ^ 2 / U.T ^ 2 * (T.g * (r (.bnd x)).v * Mom3.h2 fun i => e.m.nb x i * (test i (.bnd x)).v) := by
    intro x
    simp only [sc_v, vc_v, pt_bnd, Mom3.h2]
    ring
  have h : Mom3.intPgForm (U.momTerm T) dg none (fun k => (bc k).map U.momFuncs) (U.sc U.L r) (U.vc 1 test) =
      U.L ^ 4 / U.T ^ 2 * Mom3.intPgForm T dg none bc r test := by
    unfold Mom3.intPgForm
    refine ite_eq Iff.rfl (add_eq (add_eq (add_eq (U.dx_eq (U.L / U.T ^ 2) (fun x => neg_eq ?_) (by ring))
      (add_eq (U.dSv_eq _ hc (by ring)) (U.dSh_eq _ hc (by ring))))
      (add_eq (U.dbottom_eq _ hb (by ring)) (U.dsurf_eq _ hb (by ring))))
      (U.sideLoop_eq (U.L ^ 2 / U.T ^ 2) (fun k x => ?_) (by ring)))
      (U.dx_eq (U.L / U.T ^ 2) (fun x => ?_) (by ring))
    · rw [show (U.momTerm T).g = U.L / U.T ^ 2 * T.g from rfl]
      simp only [sc_v, vc_g, pt_cell, Mom3.h2]
      field_simp
    · rw [show (U.momTerm T).g = U.L / U.T ^ 2 * T.g from rfl, hh]
      simp only [vc_v, pt_bnd, Mom3.h2]
      ring
    · rw [show (U.momTerm T).g = U.L / U.T ^ 2 * T.g from rfl]
      simp only [sc_g, vc_v, pt_cell, Mom3.h2]
      field_simp
  cases scalar with
  | none => exact h
  | some a => exact (congrArg (a * ·) h).trans (mul_left_comm _ _ _)

end Verif.Unit
