import Verif.Strong.Props2
import Verif.Mom3.Props2

/-!
C139: the weak form of the 3D momentum equation is that of the equation in the documentation of the module.
-/

namespace Verif.Strong

open Verif.Dg Verif.Ext Verif.Mom3

variable {e : Mesh3}

/-- Vertical diffusion of a continuous function with continuous flux `G`: the flux through surface and bottom is left. -/
theorem vDiffusion_parts (T : Tracer3.Term e) (F : Tracer3.Fields e) (nu c test G : Sc e.m) (hnu : F.diffV = some nu)
    (hv : T.vdg = true) (hf : e.m.Flat) (hup : Upright e) (hG : ∀ x, (G x).v = (nu x).v * (c x).g 2) (hGc : Cont G)
    (hc : Cont c) (hd : DivExact e.m fun i => test * if i = 2 then G else cst e.m 0) :
    Tracer3.vDiffusion T F c test = e.m.dx (fun x => (test (.cell x)).v * (G (.cell x)).g 2) -
      (e.dsurf fun b => (G (.bnd b)).v * e.m.nb b 2 * (test (.bnd b)).v) -
      e.dbottom fun b => (G (.bnd b)).v * e.m.nb b 2 * (test (.bnd b)).v := by
  let H : Vc e.m := fun i => if i = 2 then G else cst e.m 0
  have hH : ∀ i, Cont (H i) := fun i => by
    by_cases h : i = 2
    · simp only [H, if_pos h]; exact hGc
    · simp only [H, if_neg h]; exact fun s => rfl
  have p := parts_flux H test hH hd
  have e1 : e.m.dx (fun x => ∑ i, (test (.cell x)).g i * (H i (.cell x)).v) =
      e.m.dx fun x => (test (.cell x)).g 2 * ((nu (.cell x)).v * (c (.cell x)).g 2) := dx_congr fun x => by
    simp [H, Fin.sum_univ_three, hG]
  have e2 : e.m.dS (fun s => ∑ i, jumpN test s i * avg (H i) s) = e.dSh fun s => jumpN test s 2 * avg G s := by
    unfold Mesh3.dSh
    refine dS_congr fun s => ?_
    have : (∑ i, jumpN test s i * avg (H i) s) = jumpN test s 2 * avg G s := by
      simp [H, Fin.sum_univ_three, avg]
    rw [this]
    cases hs : e.hor s
    · have z : jumpN test s 2 = 0 := by simp [jumpN, hf s 2, hup.1 s hs]
      simp [z]
    · simp
  have e3 : (∑ b, e.m.wB b * (normalAt H b * (test (.bnd b)).v)) =
      (e.dsurf fun b => (G (.bnd b)).v * e.m.nb b 2 * (test (.bnd b)).v) +
      e.dbottom fun b => (G (.bnd b)).v * e.m.nb b 2 * (test (.bnd b)).v := by
    unfold Mesh3.dsurf Mesh3.dbottom
    rw [← dB_add]
    refine dB_congr fun b => ?_
    have : normalAt H b = (G (.bnd b)).v * e.m.nb b 2 := by simp [H, normalAt, Fin.sum_univ_three]
    rw [this]
    cases hb : e.face b
    · simp
    · simp
    · simp [hup.2 b hb]
  have e4 : e.m.dx (fun x => div H (.cell x) * (test (.cell x)).v) =
      e.m.dx fun x => (test (.cell x)).v * (G (.cell x)).g 2 := dx_congr fun x => by
    simp [H, div, Fin.sum_univ_three]; ring
  have e5 : (e.dSh fun s => Tracer3.sigmaV T s * (jumpN test s 2 * (avg nu s * jumpN c s 2)) -
        Tracer3.avgZ nu test s * jumpN c s 2 - jumpN test s 2 * Tracer3.avgZ nu c s) =
      -1 * e.dSh fun s => jumpN test s 2 * avg G s := by
    rw [← dSh_smul]
    refine dSh_congr fun s _ => ?_
    have : Tracer3.avgZ nu c s = avg G s := by unfold Tracer3.avgZ avg; rw [hG, hG]
    rw [hc.jumpN hf, this]; ring
  rw [Tracer3.vDiffusion_eq T F nu c test hnu hv]
  rw [e1, e2, e3, e4] at p
  rw [e5]
  linarith

/-- The acceleration of the documentation, component `i`: `U` is the velocity, `W` the vertical one relative to the mesh, `u`
the deviation from the depth average (the velocity itself without mode splitting), `Q` and `G` the horizontal and vertical
viscous fluxes. -/
noncomputable def accel3 (F : Fields e) (u U : Vc e.m) (W : Sc e.m) (Q : Fin 3 → Vc e.m) (G : Vc e.m) (i : Fin 3)
    (x : Pt e.m) : ℝ :=
  -((U i x * U 0 x).g 0 + (U i x * U 1 x).g 1 + (U i x * W x).g 2)
    - F.intPg.elim 0 (fun p => (p i x).v)
    + ((Q i 0 x).g 0 + (Q i 1 x).g 1) + (G i x).g 2
    - F.linDrag.elim 0 (fun c => (c x).v * (U i x).v)
    - F.coriolis.elim 0 (fun c => (c x).v * ![-(u 1 x).v, (u 0 x).v, 0] i)
    + F.source.elim 0 (fun r => (r i x).v)

/-- What is prescribed at the sides agrees with the flow: no flow through closed sides, and the prescribed velocity where
there is a boundary condition. -/
def FitsSides (T : Term e) (F : Fields e) (bc : ℕ → Option (BFuncs e)) (U : Vc e.m) : Prop :=
  ∀ b, e.face b = .side →
    (bc (e.m.marker b) = none → (U 0 (.bnd b)).v * e.m.nb b 0 + (U 1 (.bnd b)).v * e.m.nb b 1 = 0) ∧
    ∀ f V, bc (e.m.marker b) = some f → Outside T F f (e.m.marker b) U b V →
      V 0 = (U 0 (.bnd b)).v ∧ V 1 = (U 1 (.bnd b)).v

/-- C139, `div_h(u u) + d(w u)/dz`: both advection terms of the 3D equation for velocities without jumps; `W` is the vertical
velocity relative to the mesh.  Nothing passes the bottom and the closed sides. -/
theorem C139_advection (T : Term e) (F : Fields e) (bc : ℕ → Option (BFuncs e)) (u U test : Vc e.m) (w W : Sc e.m)
    (hU : IsTotal F u U) (hw : F.w = some w) (hW : ∀ x, W x = match F.wMesh with | some q => w x - q x | none => w x)
    (hnl : T.nonlinear = true) (hh : T.hdg = true) (hv : T.vdg = true) (hf : e.m.Flat) (hup : Upright e)
    (h2 : Horizontal U) (hUc : ∀ i, Cont (U i)) (hWc : Cont W)
    (hbot : ∀ b, e.face b = .bottom →
      (U 0 (.bnd b)).v * e.m.nb b 0 + (U 1 (.bnd b)).v * e.m.nb b 1 + (W (.bnd b)).v * e.m.nb b 2 = 0)
    (hside : FitsSides T F bc U)
    (hd : ∀ j, j ≠ 2 → DivExact e.m fun i => test j * (U j * (![U 0, U 1, W] : Vc e.m) i)) :
    Mom3.hAdvection T F bc u u test + Mom3.vAdvection T F u test =
      e.m.dx fun x => Mom3.h2 fun i => -(((U i (.cell x) * U 0 (.cell x)).g 0 + (U i (.cell x) * U 1 (.cell x)).g 1 +
        (U i (.cell x) * W (.cell x)).g 2) * (test i (.cell x)).v) := by
  have hz : walls T F bc U test = 0 := by
    unfold walls
    rw [sideLoop_eq]
    refine Finset.sum_eq_zero fun b _ => ?_
    by_cases hb : e.face b = .side
    · simp only [hb, if_true]
      split
      · next h =>
        have h0 : (∑ i, (U i (.bnd b)).v * e.m.nb b i) = 0 := by
          rw [Fin.sum_univ_three, h2, zero_mul, add_zero]
          exact (hside b hb).1 h
        simp [wall, h0]
      · simp
    · simp [hb]
  have ha : ∀ j, (j = 0 ∨ j = 1) →
      Tracer3.hAdvection (tTerm T) (tFields F U) (tBc T F bc U j) (U j) (test j) +
        Tracer3.vAdvection (tTerm T) (tFields F U) (U j) (test j) =
      e.m.dx fun x => -(((U j (.cell x) * U 0 (.cell x)).g 0 + (U j (.cell x) * U 1 (.cell x)).g 1 +
        (U j (.cell x) * W (.cell x)).g 2) * (test j (.cell x)).v) := by
    intro j hj
    refine C138_advection_3d (tTerm T) (tFields F U) (tBc T F bc U j) U U w W (U j) (test j) rfl hw (fun i x => rfl) hW hh hv
      rfl hf hup h2 hUc hWc (hUc j) hbot (fun b hb => ?_) (hd j (by rcases hj with rfl | rfl <;> decide))
    unfold tBc
    cases hbc : bc (e.m.marker b) with
    | none => exact (hside b hb).1 hbc
    | some f =>
      simp only [Option.map_some]
      rintro v hv
      obtain rfl := Option.some.inj hv
      change (extUv T F f (e.m.marker b) U b).getD (fun i => (U i (.bnd b)).v) j = _
      cases hV : extUv T F f (e.m.marker b) U b with
      | none => rfl
      | some V =>
        have h := (hside b hb).2 f V hbc hV
        simp only [Option.getD_some]
        rcases hj with rfl | rfl
        · exact h.1
        · exact h.2
  rw [Mom3.hAdvection_eq T F bc u U test hU hnl hh h2, Mom3.vAdvection_eq T F u U test w hU hw hnl hv, hz]
  have h0 := ha 0 (Or.inl rfl)
  have h1 := ha 1 (Or.inr rfl)
  have hs : (e.m.dx fun x => Mom3.h2 fun i => -(((U i (.cell x) * U 0 (.cell x)).g 0 + (U i (.cell x) * U 1 (.cell x)).g 1 +
        (U i (.cell x) * W (.cell x)).g 2) * (test i (.cell x)).v)) = _ := dx_add _ _
  rw [hs, ← h0, ← h1]
  ring

/-- C139, vertical viscosity with the stress at surface and bottom: `d(nu du/dz)/dz`, if the viscous flux at the surface is
the wind stress over `rho0` and at the bottom the friction `Cd |u| u` of the total velocity. -/
theorem C139_vertical (T : Term e) (F : Fields e) (u U test : Vc e.m) (nu : Sc e.m) (G : Vc e.m) (Cd : e.m.B → ℝ)
    (hU : IsTotal F u U) (hnu : F.viscV = some nu) (hv : T.vdg = true) (hfr : T.friction = true) (hf : e.m.Flat)
    (hup : Upright e) (h2 : test 2 = cst e.m 0) (huc : ∀ i, Cont (u i))
    (hG : ∀ i x, (G i x).v = (nu x).v * (u i x).g 2) (hGc : ∀ i, Cont (G i))
    (hCd : ∀ b, e.face b = .bottom → dragAt T F b = some (Cd b))
    (hsurf : ∀ i b, i ≠ 2 → e.face b = .surf →
      (G i (.bnd b)).v * e.m.nb b 2 = F.wind.elim 0 fun tau => (tau i (.bnd b)).v / T.rho0)
    (hbot : ∀ i b, i ≠ 2 → e.face b = .bottom → (G i (.bnd b)).v * e.m.nb b 2 =
      -(Cd b * Real.sqrt ((U 0 (.bnd b)).v ^ 2 + (U 1 (.bnd b)).v ^ 2) * (U i (.bnd b)).v))
    (hd : ∀ j, j ≠ 2 → DivExact e.m fun i => test j * if i = 2 then G j else cst e.m 0) :
    vViscosity T F u test + bottomFriction T F u u test + windStress T F test =
      e.m.dx fun x => Mom3.h2 fun i => (test i (.cell x)).v * (G i (.cell x)).g 2 := by
  have hd' : ∀ j, DivExact e.m fun i => test j * if i = 2 then G j else cst e.m 0 := fun j => by
    by_cases hj : j = 2
    · have : (fun i => test j * if i = 2 then G j else cst e.m 0) = fun _ : Fin 3 => cst e.m 0 := by
        subst hj
        funext i x
        rw [h2]
        apply Jet.ext <;> [skip; funext k] <;> simp
      rw [this]
      unfold DivExact
      simp [div, jumpV, normalAt, dx_zero, dS_zero]
    · exact hd j hj
  have hp := fun j => vDiffusion_parts (tTerm T) (tFields F U) nu (u j) (test j) (G j) hnu hv hf hup (hG j) (hGc j) (huc j)
    (hd' j)
  have hw : windStress T F test = (e.dsurf fun b => (G 0 (.bnd b)).v * e.m.nb b 2 * (test 0 (.bnd b)).v) +
      e.dsurf fun b => (G 1 (.bnd b)).v * e.m.nb b 2 * (test 1 (.bnd b)).v := by
    unfold windStress
    rw [hnu, ← dsurf_add]
    cases hwi : F.wind with
    | none =>
      have : (e.dsurf fun b => (G 0 (.bnd b)).v * e.m.nb b 2 * (test 0 (.bnd b)).v +
          (G 1 (.bnd b)).v * e.m.nb b 2 * (test 1 (.bnd b)).v) = e.dsurf fun _ => 0 := dsurf_congr fun b hb => by
        rw [hsurf 0 b (by decide) hb, hsurf 1 b (by decide) hb, hwi]; simp
      rw [this]
      simp [Mesh3.dsurf]
    | some tau =>
      refine dsurf_congr fun b hb => ?_
      rw [hsurf 0 b (by decide) hb, hsurf 1 b (by decide) hb, hwi]
      simp only [Mom3.h2, Option.elim_some]
      ring
  have hb : bottomFriction T F u u test = (e.dbottom fun b => (G 0 (.bnd b)).v * e.m.nb b 2 * (test 0 (.bnd b)).v) +
      e.dbottom fun b => (G 1 (.bnd b)).v * e.m.nb b 2 * (test 1 (.bnd b)).v := by
    unfold bottomFriction
    rw [if_pos hfr, ← dbottom_add]
    simp only [hU.eq]
    rw [← neg_one_mul, ← dbottom_smul]
    refine dbottom_congr fun b hb => ?_
    rw [hbot 0 b (by decide) hb, hbot 1 b (by decide) hb, hCd b hb]
    simp only [Mom3.h2, Option.getD_some]
    ring
  have hz : ∀ (D : (e.m.B → ℝ) → ℝ), D (fun _ => 0) = 0 →
      D (fun b => (G 2 (.bnd b)).v * e.m.nb b 2 * (test 2 (.bnd b)).v) = 0 := fun D h => by
    rw [h2]; simpa using h
  have hs : (e.m.dx fun x => Mom3.h2 fun i => (test i (.cell x)).v * (G i (.cell x)).g 2) = _ := dx_add _ _
  have hx : (e.m.dx fun x => (test 2 (.cell x)).v * (G 2 (.cell x)).g 2) = 0 := by rw [h2]; simp [dx_zero]
  rw [vViscosity_eq T F u test U, Fin.sum_univ_three, hp 0, hp 1, hp 2, hw, hb, hx, hz e.dsurf (by simp [Mesh3.dsurf]),
    hz e.dbottom (by simp [Mesh3.dbottom]), hs]
  ring

/-- C139, `div_h(nu_h grad_h u)`: horizontal viscosity of the total velocity, where no stress acts on the sides. -/
theorem C139_horizontal (T : Term e) (F : Fields e) (u U test : Vc e.m) (mu : Sc e.m) (Q : Fin 3 → Vc e.m)
    (hU : IsTotal F u U) (hmu : F.viscH = some mu) (hh : T.hdg = true) (hf : e.m.Flat) (h2 : test 2 = cst e.m 0)
    (hUc : ∀ i, Cont (U i)) (hQ : ∀ c i x, i ≠ 2 → (Q c i x).v = (mu x).v * (U c x).g i) (hQ2 : ∀ c, Q c 2 = cst e.m 0)
    (hQc : ∀ c i, Cont (Q c i)) (hs : ∀ c b, e.face b = .side → stressAt mu U c b = 0)
    (hd : ∀ j, j ≠ 2 → DivExact e.m fun i => test j * Q j i) :
    hViscosity T F u test =
      e.m.dx fun x => Mom3.h2 fun i => (test i (.cell x)).v * ((Q i 0 (.cell x)).g 0 + (Q i 1 (.cell x)).g 1) := by
  have hp := fun c hc => Tracer3.C88_horizontal_consistent (tTerm T) (tFields F U) mu (U c) (test c) (Q c) hmu hh hf (hQ c)
    (hQ2 c) (hUc c) (fun s i => hQc c i s) (fun b hb => by rw [bndH_eq]; exact hs c b hb) (hd c hc)
  rw [hViscosity_eq T F u U test hU h2, hp 0 (by decide), hp 1 (by decide), ← dx_add]
  rfl

/-- C139: the whole equation.  For horizontal test functions the residual of the momentum equation is the integral of the
acceleration of the documentation, whatever the stabilization and the penalties are. -/
theorem C139_momentum (T : Term e) (F : Fields e) (bc : ℕ → Option (BFuncs e)) (u U test : Vc e.m) (w W mu nu : Sc e.m)
    (Q : Fin 3 → Vc e.m) (G : Vc e.m) (Cd : e.m.B → ℝ)
    (hU : IsTotal F u U) (hw : F.w = some w) (hW : ∀ x, W x = match F.wMesh with | some q => w x - q x | none => w x)
    (hmu : F.viscH = some mu) (hnu : F.viscV = some nu) (hnl : T.nonlinear = true) (hfr : T.friction = true)
    (hh : T.hdg = true) (hv : T.vdg = true) (hf : e.m.Flat) (hup : Upright e) (ht : test 2 = cst e.m 0)
    (h2 : Horizontal U) (hUc : ∀ i, Cont (U i)) (huc : ∀ i, Cont (u i)) (hWc : Cont W)
    (hbot : ∀ b, e.face b = .bottom →
      (U 0 (.bnd b)).v * e.m.nb b 0 + (U 1 (.bnd b)).v * e.m.nb b 1 + (W (.bnd b)).v * e.m.nb b 2 = 0)
    (hside : FitsSides T F bc U)
    (hQ : ∀ c i x, i ≠ 2 → (Q c i x).v = (mu x).v * (U c x).g i) (hQ2 : ∀ c, Q c 2 = cst e.m 0)
    (hQc : ∀ c i, Cont (Q c i)) (hQs : ∀ c b, e.face b = .side → stressAt mu U c b = 0)
    (hG : ∀ i x, (G i x).v = (nu x).v * (u i x).g 2) (hGc : ∀ i, Cont (G i))
    (hCd : ∀ b, e.face b = .bottom → dragAt T F b = some (Cd b))
    (hsurf : ∀ i b, i ≠ 2 → e.face b = .surf →
      (G i (.bnd b)).v * e.m.nb b 2 = F.wind.elim 0 fun tau => (tau i (.bnd b)).v / T.rho0)
    (hfric : ∀ i b, i ≠ 2 → e.face b = .bottom → (G i (.bnd b)).v * e.m.nb b 2 =
      -(Cd b * Real.sqrt ((U 0 (.bnd b)).v ^ 2 + (U 1 (.bnd b)).v ^ 2) * (U i (.bnd b)).v))
    (hdA : ∀ j, j ≠ 2 → DivExact e.m fun i => test j * (U j * (![U 0, U 1, W] : Vc e.m) i))
    (hdQ : ∀ j, j ≠ 2 → DivExact e.m fun i => test j * Q j i)
    (hdG : ∀ j, j ≠ 2 → DivExact e.m fun i => test j * if i = 2 then G j else cst e.m 0) :
    Mom3.residual T F bc u u test =
      e.m.dx fun x => Mom3.h2 fun i => (test i (.cell x)).v * accel3 F u U W Q G i (.cell x) := by
  have a1 := C139_advection T F bc u U test w W hU hw hW hnl hh hv hf hup h2 hUc hWc hbot hside hdA
  have a2 := C139_vertical T F u U test nu G Cd hU hnu hv hfr hf hup ht huc hG hGc hCd hsurf hfric hdG
  have a3 := C139_horizontal T F u U test mu Q hU hmu hh hf ht hUc hQ hQ2 hQc hQs hdQ
  have a4 : pressureGradient F test =
      e.m.dx fun x => Mom3.h2 fun i => -(F.intPg.elim 0 (fun p => (p i (.cell x)).v) * (test i (.cell x)).v) := by
    unfold pressureGradient
    cases F.intPg with
    | none => simp [Mom3.h2, dx_zero]
    | some p => dsimp only; rw [← dx_neg]; exact dx_congr fun x => by simp only [Mom3.h2, Option.elim_some]; ring
  have t2 : ∀ x, (test 2 (.cell x)).v = 0 := fun x => by rw [ht]; rfl
  have a5 : linearDrag F u test = e.m.dx fun x =>
      Mom3.h2 fun i => -(F.linDrag.elim 0 (fun c => (c (.cell x)).v * (U i (.cell x)).v) * (test i (.cell x)).v) := by
    unfold linearDrag
    cases F.linDrag with
    | none => simp [Mom3.h2, dx_zero]
    | some c =>
      dsimp only
      rw [← dx_neg]
      exact dx_congr fun x => by
        simp only [Mom3.h2, Option.elim_some, Fin.sum_univ_three, hU.eq, t2]; ring
  have a6 : Mom3.coriolis F u test = e.m.dx fun x => Mom3.h2 fun i =>
      -(F.coriolis.elim 0 (fun c => (c (.cell x)).v * ![-(u 1 (.cell x)).v, (u 0 (.cell x)).v, 0] i) *
        (test i (.cell x)).v) := by
    unfold Mom3.coriolis
    cases F.coriolis with
    | none => simp [Mom3.h2, dx_zero]
    | some c =>
      dsimp only
      rw [← dx_neg]
      exact dx_congr fun x => by
        simp only [Mom3.h2, Option.elim_some, Matrix.cons_val_zero, Matrix.cons_val_one]; ring
  have a7 : Mom3.source T F test = windStress T F test + e.m.dx fun x =>
      Mom3.h2 fun i => F.source.elim 0 (fun r => (r i (.cell x)).v) * (test i (.cell x)).v := by
    unfold Mom3.source
    congr 1
    cases F.source with
    | none => simp [Mom3.h2, dx_zero]
    | some r => exact dx_congr fun x => by simp only [Mom3.h2, Option.elim_some, Fin.sum_univ_three, t2]; ring
  unfold Mom3.residual
  have : pressureGradient F test + Mom3.hAdvection T F bc u u test + Mom3.vAdvection T F u test + hViscosity T F u test +
      vViscosity T F u test + bottomFriction T F u u test + linearDrag F u test + Mom3.coriolis F u test +
      Mom3.source T F test =
      pressureGradient F test + (Mom3.hAdvection T F bc u u test + Mom3.vAdvection T F u test) + hViscosity T F u test +
      (vViscosity T F u test + bottomFriction T F u u test + windStress T F test) + linearDrag F u test +
      Mom3.coriolis F u test + (Mom3.source T F test - windStress T F test) := by ring
  rw [this, a1, a2, a3, a4, a5, a6, a7, add_sub_cancel_left, ← dx_add, ← dx_add, ← dx_add, ← dx_add, ← dx_add, ← dx_add]
  refine dx_congr fun x => ?_
  simp only [Mom3.h2, accel3]
  ring

/-- C139: a flow with the documented acceleration solves the discrete momentum equation: with the time derivative `dudt` of
the deviation, the weak form of `du/dt` equals the residual. -/
theorem C139_solution (T : Term e) (F : Fields e) (bc : ℕ → Option (BFuncs e)) (u U test dudt : Vc e.m) (W : Sc e.m)
    (Q : Fin 3 → Vc e.m) (G : Vc e.m)
    (hres : Mom3.residual T F bc u u test =
      e.m.dx fun x => Mom3.h2 fun i => (test i (.cell x)).v * accel3 F u U W Q G i (.cell x))
    (h : ∀ i x, i ≠ 2 → (dudt i (.cell x)).v = accel3 F u U W Q G i (.cell x)) :
    (e.m.dx fun x => Mom3.h2 fun i => (dudt i (.cell x)).v * (test i (.cell x)).v) = Mom3.residual T F bc u u test := by
  rw [hres]
  refine dx_congr fun x => ?_
  simp only [Mom3.h2, h 0 x (by decide), h 1 x (by decide)]
  ring

/-! ### Examples in the tank -/

theorem tank_exact_const (lo up : Lin) (k : Fin 3 → ℝ) : DivExact tank.m fun i => tankField lo up * cst tank.m (k i) := by
  simp only [tankField_smul]
  exact tank_divExact _ _

/-- Horizontal test functions, linear in each layer. -/
noncomputable def exTest (lo up : Fin 3 → Lin) : Vc tank.m := fun i =>
  if i = 2 then cst tank.m 0 else tankField (lo i) (up i)

theorem exTest_exact (lo up : Fin 3 → Lin) (j : Fin 3) (hj : j ≠ 2) (f : Vc tank.m) (k : Fin 3 → ℝ)
    (h : ∀ i, f i = cst tank.m (k i)) : DivExact tank.m fun i => exTest lo up j * f i := by
  have : (fun i => exTest lo up j * f i) = fun i => tankField (lo j) (up j) * cst tank.m (k i) := funext fun i => by
    rw [h i, exTest, if_neg hj]
  rw [this]
  exact tank_exact_const _ _ _

/-- Wind over a sheared flow: viscosity 1, wind stress `rho0 d`, bottom friction. -/
noncomputable def windFields (d : ℝ) : Fields tank where
  eta := cst tank.m 0
  w := some (cst tank.m 0)
  lfFactor := 1
  viscV := some (cst tank.m 1)
  drag := some (cst tank.m (d / Real.sqrt 2))
  wind := some fun i => cst tank.m (if i = 0 then 1000 * d else 0)

/-- The flow `u = 1 + d (z + 5/2)`, with velocity 1 at the bottom. -/
noncomputable def windUv (d : ℝ) : Vc tank.m := fun i =>
  if i = 0 then tankField ⟨1 + 5 / 2 * d, 0, 0, d⟩ ⟨1 + 5 / 2 * d, 0, 0, d⟩ else cst tank.m 0

/-- The stress is the same at all depths: there is no acceleration. -/
example (d : ℝ) (lo up : Fin 3 → Lin) :
    vViscosity exTerm (windFields d) (windUv d) (exTest lo up) +
      bottomFriction exTerm (windFields d) (windUv d) (windUv d) (exTest lo up) +
      windStress exTerm (windFields d) (exTest lo up) = 0 := by
  have hg : ∀ i x, (windUv d i x).g 2 = if i = 0 then d else 0 := by
    intro i x
    unfold windUv
    split
    · cases x with
      | cell y => cases y <;> simp [tankField, Lin.jet]
      | plus y => cases y; simp [tankField, Lin.jet]
      | minus y => cases y; simp [tankField, Lin.jet]
      | bnd y => cases y <;> simp [tankField, Lin.jet]
    · simp
  rw [C139_vertical exTerm (windFields d) (windUv d) (windUv d) (exTest lo up) (cst tank.m 1)
    (fun i => cst tank.m (if i = 0 then d else 0)) (fun _ => d / Real.sqrt 2) (Or.inl ⟨rfl, rfl⟩) rfl rfl rfl tank_flat
    tank_upright rfl (fun i s => ?_) (fun i x => by simp [hg]) (fun i s => rfl) (fun b _ => rfl) (fun i b hi => ?_)
    (fun i b hi => ?_) (fun j hj => ?_)]
  · simp [Mom3.h2, dx_zero]
  · unfold windUv
    split
    · cases s; rfl
    · rfl
  · change tkFace b = .surf → (if i = 0 then d else 0) * tkN b 2 = (if i = 0 then 1000 * d else 0) / 1000
    cases b <;> simp [tkFace, tkN]
    split <;> simp
  · change tkFace b = .bottom → (if i = 0 then d else 0) * tkN b 2 = _
    cases b <;> simp only [tkFace, reduceCtorEq, false_imp_iff, forall_const]
    have h0 : (windUv d 0 (.bnd TkB.bed)).v = 1 := by simp [windUv, tankField, Lin.jet]; ring
    have h1 : ∀ i, i ≠ 0 → (windUv d i (.bnd TkB.bed)).v = 0 := fun i hi => by simp [windUv, hi]
    rw [h0, h1 1 (by decide)]
    by_cases h : i = 0
    · subst h
      rw [h0]
      simp [tkN]
      ring
    · simp [h, h1 i h]
  · refine exTest_exact lo up j hj _ (fun i => if i = 2 then (if j = 0 then d else 0) else 0) fun i => ?_
    split <;> rfl

/-- All forces on the uniform flow along the bottom; no wind and no drag. -/
noncomputable def forceFields (f r p q : ℝ) : Fields tank where
  eta := cst tank.m 0
  w := some (cst tank.m 1)
  lfFactor := 1
  viscH := some (cst tank.m 1)
  viscV := some (cst tank.m 1)
  drag := some (cst tank.m 0)
  linDrag := some (cst tank.m r)
  coriolis := some (cst tank.m f)
  source := some fun i => cst tank.m (if i = 1 then q else 0)
  intPg := some fun i => cst tank.m (if i = 0 then p else 0)

example (f r p q : ℝ) (lo up : Fin 3 → Lin) :
    Mom3.residual exTerm (forceFields f r p q) exBc tankUv tankUv (exTest lo up) =
      tank.m.dx fun x => (exTest lo up 0 (.cell x)).v * (-p - r) + (exTest lo up 1 (.cell x)).v * (-f + q) := by
  rw [C139_momentum exTerm (forceFields f r p q) exBc tankUv tankUv (exTest lo up) (cst tank.m 1) (cst tank.m 1)
    (cst tank.m 1) (cst tank.m 1) (fun _ _ => cst tank.m 0) (fun _ => cst tank.m 0) (fun _ => 0) (Or.inl ⟨rfl, rfl⟩) rfl
    (fun _ => rfl) rfl rfl rfl rfl rfl rfl tank_flat tank_upright rfl (fun x => rfl) (fun i s => rfl) (fun i s => rfl)
    (fun s => rfl) (fun b => ?_) (fun b hb => ?_) (fun c i x _ => ?_) (fun _ => rfl) (fun c i s => rfl) (fun c b _ => ?_)
    (fun i x => ?_) (fun i s => rfl) (fun b _ => rfl) (fun i b _ _ => ?_) (fun i b _ _ => ?_) (fun j hj => ?_)
    (fun j hj => ?_) (fun j hj => ?_)]
  · refine dx_congr fun x => ?_
    simp [Mom3.h2, accel3, forceFields, tankUv]
  · change tkFace b = .bottom → _
    have : ((tankUv 0 (.bnd b)).v * tank.m.nb b 0 + (tankUv 1 (.bnd b)).v * tank.m.nb b 1 +
        (cst tank.m 1 (.bnd b)).v * tank.m.nb b 2) = tkN b 0 + tkN b 2 := by
      simp [tankUv]; rfl
    rw [this]
    cases b <;> simp [tkFace, tkN]
  · have hb : tkFace b = .side := hb
    refine ⟨fun h => ?_, fun g V hg hV => ?_⟩
    · have e : (tankUv 0 (.bnd b)).v * tank.m.nb b 0 + (tankUv 1 (.bnd b)).v * tank.m.nb b 1 = tkN b 0 := by
        simp [tankUv]; rfl
      rw [e]
      have h : exBc (tkMarker b) = none := h
      cases b <;> simp [tkFace, exBc, tkMarker, tkN] at *
    · unfold exBc at hg
      split at hg
      · simp only [Option.some.injEq] at hg
        subst hg
        unfold Outside extUv at hV
        split at hV
        · simp only [Bool.false_eq_true, if_false, Option.some.injEq] at hV
          subst hV
          simp [tankUv]
        · simp only [if_true, Option.some.injEq] at hV
          subst hV
          exact ⟨rfl, rfl⟩
      · cases hg
  · simp [tankUv]
  · simp [stressAt, tankUv]
  · simp [tankUv]
  · simp [forceFields]
  · simp
  · refine exTest_exact lo up j hj _ (fun i => (if j = 0 then 1 else 0) * ![1, 0, 1] i) fun i => ?_
    funext x
    apply Jet.ext
    · fin_cases i <;> simp [tankUv]
    · funext k; fin_cases i <;> simp [tankUv]
  · exact exTest_exact lo up j hj _ (fun _ => 0) fun i => rfl
  · refine exTest_exact lo up j hj _ (fun _ => 0) fun i => ?_
    split <;> rfl

end Verif.Strong
