import Verif.Tracer3.Model
import Verif.Ext.Props

/-!
C86: the tracer equation on extruded meshes for a tracer that is constant in space.
-/

namespace Verif.Tracer3

open Verif.Dg Verif.Ext

variable {e : Mesh3}

/-- The vertical velocity of the mesh, zero for a fixed mesh. -/
def meshW (F : Fields e) : Sc e.m := F.wMesh.getD (cst e.m 0)

/-- The prescribed tracer value, if any, is the constant `k`. -/
def ValueIs (f : BFuncs e) (k : ℝ) : Prop := ∀ v, f.value = some v → ∀ b, v b = k

/-- `hAdvection` without the case distinctions. -/
theorem hAdvection_eq (T : Term e) (F : Fields e) (bc : ℕ → Option (BFuncs e)) (uv : Vc e.m) (c test : Sc e.m)
    (hu : F.uv = some uv) (hdg : T.hdg = true) (hsy : T.symm = true) :
    hAdvection T F bc c test =
      -((e.m.dx fun x => -((c (.cell x)).v * ∑ i, (totalUv F uv i (.cell x)).v * (test (.cell x)).g i)) +
        (e.dSv (fun s => cUp T c (unAv (totalUv F uv) s) s * facetDiv (totalUv F uv) test s) +
          e.dSh (fun s => cUp T c (unAv (totalUv F uv) s) s * facetDiv (totalUv F uv) test s) +
          (if T.lf then
            e.dSv (fun s => (1 / 2) * |unAv (totalUv F uv) s| * F.lfFactor * (jump test s * jump c s)) +
            e.dSh (fun s => (1 / 2) * |unAv (totalUv F uv) s| * F.lfFactor * (jump test s * jump c s))
          else 0) +
          e.sideLoop fun k b => sideTerm T (totalUv F uv) (bc k) c test b) +
        e.dsurf fun b => (c (.bnd b)).v * normalH (totalUv F uv) b * (test (.bnd b)).v) := by
  unfold hAdvection
  rw [hu]
  simp only [hdg, hsy, if_true]

/-- `vAdvection` without the case distinctions. -/
theorem vAdvection_eq (T : Term e) (F : Fields e) (w c test : Sc e.m)
    (hw : F.w = some w) (hdg : T.vdg = true) :
    vAdvection T F c test =
      -((e.m.dx fun x => -((c (.cell x)).v * ((w (.cell x)).v - (meshW F (.cell x)).v) * (test (.cell x)).g 2)) +
        (e.dSh (fun s => cUp T c ((avg w s - avg (meshW F) s) * e.m.nm s 2) s * (avg w s - avg (meshW F) s) *
            jumpN test s 2) +
          (if T.lf then e.dSh fun s => (1 / 2) * |(avg w s - avg (meshW F) s) * e.m.nm s 2| * F.lfFactor *
            (jump test s * jump c s) else 0)) +
        e.dsurf fun b => (c (.bnd b)).v * ((w (.bnd b)).v - (meshW F (.bnd b)).v) * e.m.nb b 2 *
          (test (.bnd b)).v) := by
  have hv : ∀ p, (vertVelo F w p).v = (w p).v - (meshW F p).v := by
    intro p
    unfold vertVelo meshW
    cases F.wMesh <;> simp
  have ha : ∀ s, avg (vertVelo F w) s = avg w s - avg (meshW F) s := by
    intro s
    unfold avg
    rw [hv, hv]; ring
  unfold vAdvection
  rw [hw]
  simp only [hdg, if_true, hv, ha]

theorem cUp_cst (T : Term e) (k un : ℝ) (s : e.m.S) : cUp T (cst e.m k) un s = k := by
  unfold cUp; simp only [cst_apply, Jet.const_v]; ring

theorem sideFlux_cst (T : Term e) (uv : Vc e.m) (f : BFuncs e) (k : ℝ) (hf : ValueIs f k) (b : e.m.B) :
    sideFlux T uv f (cst e.m k) b = k * normalH uv b := by
  have h : (bndF f b k fun i => (uv i (.bnd b)).v).1 = k := by
    unfold bndF bndFunctions
    cases hv : f.value with
    | none => cases f.uv <;> cases f.flux <;> cases f.un <;> rfl
    | some v =>
      have := hf v hv b
      cases f.uv <;> cases f.flux <;> cases f.un <;> first | exact this | rfl
  unfold sideFlux
  simp only [cst_apply, Jet.const_v]
  rw [h]; ring

/-- C86: the advection terms for a constant tracer, for any test function for which the vertical velocity equation
holds: the constant times the form of the vertical mesh velocity. -/
theorem C86_advection (T : Term e) (F : Fields e) (bc : ℕ → Option (BFuncs e)) (bfs : ℕ → Bool) (uv : Vc e.m)
    (w test : Sc e.m) (k : ℝ) (hu : F.uv = some uv) (hw : F.w = some w)
    (hhd : T.hdg = true) (hvd : T.vdg = true) (hsy : T.symm = true)
    (hsolve : Solves bfs (totalUv F uv) w test)
    (h2 : ∀ b, e.face b = .surf → (totalUv F uv 2 (.bnd b)).v = 0)
    (hopen : ∀ b, e.face b = .side → (bc (e.m.marker b)).isSome = bfs (e.m.marker b))
    (hval : ∀ j f, bc j = some f → ValueIs f k) :
    hAdvection T F bc (cst e.m k) test + vAdvection T F (cst e.m k) test = k * wLeft (meshW F) test := by
  rw [hAdvection_eq T F bc uv _ _ hu hhd hsy, vAdvection_eq T F w _ _ hw hvd]
  unfold Solves wLeft wRight at hsolve
  unfold wLeft
  have j0 : ∀ s, jump (cst e.m k) s = 0 := fun s => by simp [jump]
  have l1 : (if T.lf = true then
      e.dSv (fun s => (1 / 2) * |unAv (totalUv F uv) s| * F.lfFactor * (jump test s * jump (cst e.m k) s)) +
      e.dSh (fun s => (1 / 2) * |unAv (totalUv F uv) s| * F.lfFactor * (jump test s * jump (cst e.m k) s))
      else 0) = 0 := by
    simp [j0, Mesh3.dSv, Mesh3.dSh, dS_zero]
  have l2 : (if T.lf = true then e.dSh fun s => (1 / 2) * |(avg w s - avg (meshW F) s) * e.m.nm s 2| *
      F.lfFactor * (jump test s * jump (cst e.m k) s) else 0) = 0 := by
    simp [j0, Mesh3.dSh, dS_zero]
  have a1 : (e.m.dx fun x => -((cst e.m k (.cell x)).v * ∑ i, (totalUv F uv i (.cell x)).v *
      (test (.cell x)).g i)) =
      -k * e.m.dx fun x => ∑ i, (totalUv F uv i (.cell x)).v * (test (.cell x)).g i := by
    rw [← dx_smul]
    exact dx_congr fun x => by simp only [cst_apply, Jet.const_v]; ring
  have a2 : e.dSv (fun s => cUp T (cst e.m k) (unAv (totalUv F uv) s) s * facetDiv (totalUv F uv) test s) =
      k * e.dSv fun s => facetDiv (totalUv F uv) test s := by
    rw [← dSv_smul]
    exact dSv_congr fun s _ => by rw [cUp_cst]
  have a3 : e.dSh (fun s => cUp T (cst e.m k) (unAv (totalUv F uv) s) s * facetDiv (totalUv F uv) test s) =
      k * e.dSh fun s => facetDiv (totalUv F uv) test s := by
    rw [← dSh_smul]
    exact dSh_congr fun s _ => by rw [cUp_cst]
  have a4 : (e.sideLoop fun j b => sideTerm T (totalUv F uv) (bc j) (cst e.m k) test b) =
      -k * e.sideLoop fun j b => if bfs j then -(normalH (totalUv F uv) b * (test (.bnd b)).v) else 0 := by
    rw [sideLoop_eq, sideLoop_eq, ← dB_smul]
    refine dB_congr fun b => ?_
    by_cases hb : e.face b = .side
    · rw [if_pos hb, if_pos hb, ← hopen b hb]
      cases hbc : bc (e.m.marker b) with
      | none => simp [sideTerm]
      | some f =>
        simp only [sideTerm, Option.isSome_some, if_true]
        rw [sideFlux_cst T _ f k (hval _ f hbc)]; ring
    · simp [hb]
  have a5 : (e.dsurf fun b => (cst e.m k (.bnd b)).v * normalH (totalUv F uv) b * (test (.bnd b)).v) =
      k * e.dsurf fun b => ((totalUv F uv 0 (.bnd b)).v * e.m.nb b 0 + (totalUv F uv 1 (.bnd b)).v * e.m.nb b 1 +
        (totalUv F uv 2 (.bnd b)).v * e.m.nb b 2) * (test (.bnd b)).v := by
    rw [← dsurf_smul]
    refine dsurf_congr fun b hb => ?_
    rw [h2 b hb]
    simp only [cst_apply, Jet.const_v, normalH]; ring
  have b1 : (e.m.dx fun x => -((cst e.m k (.cell x)).v * ((w (.cell x)).v - (meshW F (.cell x)).v) *
      (test (.cell x)).g 2)) = -k * (e.m.dx fun x => (test (.cell x)).g 2 * (w (.cell x)).v) +
      k * e.m.dx fun x => (test (.cell x)).g 2 * (meshW F (.cell x)).v := by
    rw [← dx_smul, ← dx_smul, ← dx_add]
    exact dx_congr fun x => by simp only [cst_apply, Jet.const_v]; ring
  have b2 : e.dSh (fun s => cUp T (cst e.m k) ((avg w s - avg (meshW F) s) * e.m.nm s 2) s *
      (avg w s - avg (meshW F) s) * jumpN test s 2) =
      k * e.dSh (fun s => avg w s * jumpN test s 2) + -k * e.dSh fun s => avg (meshW F) s * jumpN test s 2 := by
    rw [← dSh_smul, ← dSh_smul, ← dSh_add]
    exact dSh_congr fun s _ => by rw [cUp_cst]; ring
  have b3 : (e.dsurf fun b => (cst e.m k (.bnd b)).v * ((w (.bnd b)).v - (meshW F (.bnd b)).v) * e.m.nb b 2 *
      (test (.bnd b)).v) =
      k * e.dsurf (fun b => (w (.bnd b)).v * (test (.bnd b)).v * e.m.nb b 2) +
      -k * e.dsurf fun b => (meshW F (.bnd b)).v * (test (.bnd b)).v * e.m.nb b 2 := by
    rw [← dsurf_smul, ← dsurf_smul, ← dsurf_add]
    exact dsurf_congr fun b _ => by simp only [cst_apply, Jet.const_v]; ring
  rw [l1, l2, a1, a2, a3, a4, a5, b1, b2, b3]
  dsimp only at hsolve
  linear_combination -k * hsolve

/-- C86: the diffusion terms vanish for a constant tracer. -/
theorem C86_diffusion (T : Term e) (F : Fields e) (test : Sc e.m) (k : ℝ) (hflat : e.m.Flat) :
    hDiffusion T F (cst e.m k) test = 0 ∧ vDiffusion T F (cst e.m k) test = 0 := by
  have hj : ∀ s i, jumpN (cst e.m k) s i = 0 := by
    intro s i
    simp [jumpN, hflat s i]
  constructor
  · unfold hDiffusion
    cases F.diffH with
    | none => rfl
    | some mu => simp [hj, dx_zero, dS_zero, Mesh3.dbottom, Mesh3.dsurf]
  · unfold vDiffusion
    cases F.diffV with
    | none => rfl
    | some mu => simp [hj, dx_zero, dS_zero, Mesh3.dSh]

/-- C86: the form of the vertical mesh velocity is the rate of change of the volume: for a mesh velocity that is
continuous between the layers and zero at the bottom it is the integral of its vertical derivative. -/
theorem C86_mesh (wm test : Sc e.m) (hflat : e.m.Flat)
    (hvert : ∀ s, e.hor s = false → e.m.np s 2 = 0) (hside : ∀ b, e.face b = .side → e.m.nb b 2 = 0)
    (hcont : ∀ s, e.hor s = true → (wm (.plus s)).v = (wm (.minus s)).v)
    (hbed : ∀ b, e.face b = .bottom → (wm (.bnd b)).v = 0)
    (hex : DivExact e.m fun i => test * if i = 2 then wm else cst e.m 0) :
    wLeft wm test = e.m.dx fun x => (test (.cell x)).v * (wm (.cell x)).g 2 := by
  unfold DivExact at hex
  have n0 : ((0 : Fin 3) = 2) = False := by decide
  have n1 : ((1 : Fin 3) = 2) = False := by decide
  have e1 : (e.m.dx fun c => div (fun i => test * if i = 2 then wm else cst e.m 0) (.cell c)) =
      (e.m.dx fun x => (test (.cell x)).v * (wm (.cell x)).g 2) +
        e.m.dx fun x => (test (.cell x)).g 2 * (wm (.cell x)).v := by
    rw [← dx_add]
    refine dx_congr fun x => ?_
    unfold div
    rw [Fin.sum_univ_three]
    simp only [n0, n1, if_true, if_false, Pi.mul_apply, Jet.mul_g, cst_apply, Jet.const_v, Jet.const_g]
    ring
  have e2 : (e.m.dS fun s => jumpV (fun i => test * if i = 2 then wm else cst e.m 0) s) =
      e.dSh fun s => avg wm s * jumpN test s 2 := by
    unfold Mesh3.dSh
    refine dS_congr fun s => ?_
    unfold jumpV jumpN avg
    simp only [Fin.sum_univ_three, n0, n1, if_true, if_false, Pi.mul_apply, Jet.mul_v, cst_apply, Jet.const_v]
    cases hs : e.hor s
    · simp [hvert s hs, hflat s 2]
    · simp only [if_true]; rw [hcont s hs]; ring
  have e3 : (∑ b, e.m.wB b * normalAt (fun i => test * if i = 2 then wm else cst e.m 0) b) =
      ∑ b, e.m.wB b * ((wm (.bnd b)).v * (test (.bnd b)).v * e.m.nb b 2) := by
    refine dB_congr fun b => ?_
    unfold normalAt
    simp only [Fin.sum_univ_three, n0, n1, if_true, if_false, Pi.mul_apply, Jet.mul_v, cst_apply, Jet.const_v]
    ring
  have e4 : (e.dbottom fun b => (wm (.bnd b)).v * (test (.bnd b)).v * e.m.nb b 2) = 0 := by
    unfold Mesh3.dbottom
    refine Finset.sum_eq_zero fun b _ => ?_
    by_cases hb : e.face b = .bottom
    · simp [hb, hbed b hb]
    · simp [hb]
  have e5 : (e.sideLoop fun _ b => (wm (.bnd b)).v * (test (.bnd b)).v * e.m.nb b 2) = 0 := by
    rw [sideLoop_eq]
    refine Finset.sum_eq_zero fun b _ => ?_
    by_cases hb : e.face b = .side
    · simp [hside b hb]
    · simp [hb]
  rw [e1, e2, e3, boundary_split, e4, e5] at hex
  unfold wLeft
  linarith

/-- C86: a constant tracer stays constant.  The residual of the whole equation without source is the constant times
the rate of change of the volume, so the equation `d/dt ∫ c φ = residual(φ)` on the moving mesh is satisfied
by the constant; on a fixed mesh the residual is zero. -/
theorem C86_uniform (T : Term e) (F : Fields e) (bc : ℕ → Option (BFuncs e)) (bfs : ℕ → Bool) (uv : Vc e.m)
    (w test : Sc e.m) (k : ℝ) (hu : F.uv = some uv) (hw : F.w = some w) (hsrc : F.source = none)
    (hhd : T.hdg = true) (hvd : T.vdg = true) (hsy : T.symm = true) (hflat : e.m.Flat)
    (hsolve : Solves bfs (totalUv F uv) w test)
    (h2 : ∀ b, e.face b = .surf → (totalUv F uv 2 (.bnd b)).v = 0)
    (hopen : ∀ b, e.face b = .side → (bc (e.m.marker b)).isSome = bfs (e.m.marker b))
    (hval : ∀ j f, bc j = some f → ValueIs f k)
    (hvert : ∀ s, e.hor s = false → e.m.np s 2 = 0) (hside : ∀ b, e.face b = .side → e.m.nb b 2 = 0)
    (hcont : ∀ s, e.hor s = true → (meshW F (.plus s)).v = (meshW F (.minus s)).v)
    (hbed : ∀ b, e.face b = .bottom → (meshW F (.bnd b)).v = 0)
    (hex : DivExact e.m fun i => test * if i = 2 then meshW F else cst e.m 0) :
    residual T F bc (cst e.m k) test = k * e.m.dx fun x => (test (.cell x)).v * (meshW F (.cell x)).g 2 := by
  unfold residual
  have hd := C86_diffusion T F test k hflat
  rw [C86_advection T F bc bfs uv w test k hu hw hhd hvd hsy hsolve h2 hopen hval, hd.1, hd.2,
    C86_mesh (meshW F) test hflat hvert hside hcont hbed hex]
  unfold source
  rw [hsrc]; simp

/-- C86 on a fixed mesh. -/
theorem C86_fixed (T : Term e) (F : Fields e) (bc : ℕ → Option (BFuncs e)) (bfs : ℕ → Bool) (uv : Vc e.m)
    (w test : Sc e.m) (k : ℝ) (hu : F.uv = some uv) (hw : F.w = some w) (hsrc : F.source = none)
    (hm : F.wMesh = none)
    (hhd : T.hdg = true) (hvd : T.vdg = true) (hsy : T.symm = true) (hflat : e.m.Flat)
    (hsolve : Solves bfs (totalUv F uv) w test)
    (h2 : ∀ b, e.face b = .surf → (totalUv F uv 2 (.bnd b)).v = 0)
    (hopen : ∀ b, e.face b = .side → (bc (e.m.marker b)).isSome = bfs (e.m.marker b))
    (hval : ∀ j f, bc j = some f → ValueIs f k) :
    residual T F bc (cst e.m k) test = 0 := by
  have hd := C86_diffusion T F test k hflat
  have hm' : meshW F = cst e.m 0 := by unfold meshW; rw [hm]; rfl
  have h0 : wLeft (cst e.m 0) test = 0 := by
    unfold wLeft Mesh3.dsurf Mesh3.dSh
    simp [avg, dx_zero, dS_zero]
  unfold residual
  rw [C86_advection T F bc bfs uv w test k hu hw hhd hvd hsy hsolve h2 hopen hval, hd.1, hd.2, hm', h0]
  unfold source
  rw [hsrc]; simp

/-- C86 when the velocity is split: the vertical velocity belongs to the sum of the depth average and the deviation. -/
theorem C86_split (T : Term e) (F : Fields e) (bc : ℕ → Option (BFuncs e)) (bfs : ℕ → Bool) (uv d : Vc e.m)
    (w test : Sc e.m) (k : ℝ) (hu : F.uv = some uv) (hd : F.uvDav = some d) (hw : F.w = some w)
    (hsrc : F.source = none) (hm : F.wMesh = none)
    (hhd : T.hdg = true) (hvd : T.vdg = true) (hsy : T.symm = true) (hflat : e.m.Flat)
    (hsolve : Solves bfs (fun i => uv i + d i) w test)
    (h2 : ∀ b, e.face b = .surf → (uv 2 (.bnd b)).v + (d 2 (.bnd b)).v = 0)
    (hopen : ∀ b, e.face b = .side → (bc (e.m.marker b)).isSome = bfs (e.m.marker b))
    (hval : ∀ j f, bc j = some f → ValueIs f k) :
    residual T F bc (cst e.m k) test = 0 := by
  have ht : totalUv F uv = fun i => uv i + d i := by unfold totalUv; rw [hd]
  exact C86_fixed T F bc bfs uv w test k hu hw hsrc hm hhd hvd hsy hflat (by rw [ht]; exact hsolve)
    (by rw [ht]; exact h2) hopen hval

/-! ### Examples -/

/-- Discontinuous elements with default options. -/
noncomputable def exTerm : Term tank where
  hdg := true
  vdg := true
  symm := true
  lf := true
  sipg := 5
  sipgV := cst tank.m 5
  p := 1
  q := 1
  triangle := true
  z := 0

/-- The uniform flow in the tank on a fixed mesh. -/
noncomputable def exFields : Fields tank where
  uv := some tankUv
  uvDav := none
  elev := cst tank.m 0
  w := some (cst tank.m 1)
  wMesh := none
  lfFactor := 1
  diffH := some (cst tank.m 1)
  diffV := some (cst tank.m 1)
  source := none

/-- The tracer has a condition on the open sides. -/
noncomputable def exBc : ℕ → Option (BFuncs tank) := fun k =>
  if k == 1 || k == 2 then some { value := some fun _ => 35 } else none

/-- Salinity 35 stays 35 in the tank. -/
example (lo up : Lin) : residual exTerm exFields exBc (cst tank.m 35) (tankField lo up) = 0 := by
  refine C86_fixed exTerm exFields exBc (fun k => k == 1 || k == 2) tankUv (cst tank.m 1) _ 35 rfl rfl rfl rfl
    rfl rfl rfl tank_flat (tank_solves lo up) (fun b _ => ?_) (fun b _ => ?_) ?_
  · simp [totalUv, exFields, tankUv]
  · unfold exBc
    cases (tank.m.marker b == 1 || tank.m.marker b == 2) <;> simp
  · intro j f hj v hv b
    unfold exBc at hj
    split at hj
    · simp only [Option.some.injEq] at hj
      subst hj
      simp only [Option.some.injEq] at hv
      subst hv; rfl
    · cases hj

/-- The same with the velocity split into depth average 1/4 and deviation 3/4. -/
example (lo up : Lin) : residual exTerm { exFields with
      uv := some fun i => cst tank.m (if i = 0 then 3 / 4 else 0)
      uvDav := some fun i => cst tank.m (if i = 0 then 1 / 4 else 0) } exBc (cst tank.m 35) (tankField lo up) = 0 := by
  refine C86_split exTerm _ exBc (fun k => k == 1 || k == 2) _ _ (cst tank.m 1) _ 35 rfl rfl rfl rfl rfl
    rfl rfl rfl tank_flat ?_ (fun b _ => ?_) (fun b _ => ?_) ?_
  · have : (fun i : Fin 3 => cst tank.m (if i = 0 then 3 / 4 else 0) + cst tank.m (if i = 0 then 1 / 4 else 0)) =
        tankUv := by
      funext i p
      apply Jet.ext
      · change (if i = 0 then (3 / 4 : ℝ) else 0) + (if i = 0 then (1 / 4 : ℝ) else 0) = if i = 0 then 1 else 0
        split <;> norm_num
      · funext j; simp [tankUv]
    rw [this]
    exact tank_solves lo up
  · simp
  · unfold exBc
    cases (tank.m.marker b == 1 || tank.m.marker b == 2) <;> simp
  · intro j f hj v hv b
    unfold exBc at hj
    split at hj
    · simp only [Option.some.injEq] at hj
      subst hj
      simp only [Option.some.injEq] at hv
      subst hv; rfl
    · cases hj

/-- The surface of the tank rises with unit speed and the upper layer stretches. -/
example : wLeft (tankField ⟨0, 0, 0, 0⟩ ⟨1, 0, 0, 1⟩) (cst tank.m 1) = 1 := by
  refine (C86_mesh _ _ tank_flat (fun s hs => by simp [tank] at hs) (fun b => ?_) (fun s _ => ?_) (fun b => ?_)
    ?_).trans ((tank_dx _).trans (by simp [tankField, Lin.jet]))
  · change tkFace b = .side → tkN b 2 = 0
    cases b <;> simp [tkFace, tkN]
  · cases s; simp [tankField, Lin.jet]
  · change tkFace b = .bottom → _
    cases b <;> simp [tkFace, tankField, Lin.jet]
  · have : (fun i : Fin 3 => cst tank.m 1 * if i = 2 then tankField ⟨0, 0, 0, 0⟩ ⟨1, 0, 0, 1⟩ else cst tank.m 0) =
        fun i => tankField ⟨0, 0, 0, 0⟩ (if i = 2 then ⟨1, 0, 0, 1⟩ else ⟨0, 0, 0, 0⟩) := by
      funext i
      have h1 : ∀ f : Sc tank.m, cst tank.m 1 * f = f := by
        intro f; funext p
        apply Jet.ext
        · simp
        · funext i; simp
      rw [h1]
      split
      · rfl
      · exact tankField_cst 0
    rw [this]
    exact tank_divExact (fun _ => ⟨0, 0, 0, 0⟩) fun i => if i = 2 then ⟨1, 0, 0, 1⟩ else ⟨0, 0, 0, 0⟩

/-- The hypothesis `hopen` is needed: where the momentum equation has an open boundary and the tracer no condition,
water enters and leaves without tracer, and a constant tracer does not stay constant. -/
theorem C86_missing_condition_violated :
    ∃ (T : Term tank) (F : Fields tank) (uv : Vc tank.m) (w : Sc tank.m) (bfs : ℕ → Bool), T.hdg = true ∧
      T.vdg = true ∧ T.symm = true ∧ F.uv = some uv ∧ F.w = some w ∧ F.wMesh = none ∧ F.source = none ∧
      (∀ lo up, Solves bfs (totalUv F uv) w (tankField lo up)) ∧
      residual T F (fun _ => none) (cst tank.m 35) (cst tank.m 1) = -35 := by
  refine ⟨exTerm, exFields, tankUv, cst tank.m 1, fun k => k == 1 || k == 2, rfl, rfl, rfl, rfl, rfl, rfl, rfl,
    tank_solves, ?_⟩
  have hd := C86_diffusion exTerm exFields (cst tank.m 1) 35 tank_flat
  unfold residual
  rw [hd.1, hd.2, hAdvection_eq exTerm exFields _ tankUv _ _ rfl rfl rfl,
    vAdvection_eq exTerm exFields (cst tank.m 1) _ _ rfl rfl]
  have ht : totalUv exFields tankUv = tankUv := rfl
  have hm : meshW exFields = cst tank.m 0 := rfl
  have hj : ∀ s i, jumpN (cst tank.m 1) s i = 0 := by
    intro s i
    simp [jumpN, tank_flat s i]
  have hj' : ∀ s, jump (cst tank.m 1) s = 0 := by intro s; simp [jump]
  have hn : tank.dsurf (fun b => (cst tank.m 35 (.bnd b)).v * normalH tankUv b * (cst tank.m 1 (.bnd b)).v) = 0 := by
    refine (tank_dsurf _).trans ?_
    change 35 * ((if (0 : Fin 3) = 0 then (1 : ℝ) else 0) * tkN .surf 0 +
      (if (1 : Fin 3) = 0 then (1 : ℝ) else 0) * tkN .surf 1) * 1 = 0
    simp [tkN]
  have hv : tank.dsurf (fun b => (cst tank.m 35 (.bnd b)).v * ((cst tank.m 1 (.bnd b)).v - (cst tank.m 0 (.bnd b)).v) *
      tank.m.nb b 2 * (cst tank.m 1 (.bnd b)).v) = 35 := by
    refine (tank_dsurf _).trans ?_
    change 35 * ((1 : ℝ) - 0) * tkN .surf 2 * 1 = 35
    simp [tkN]
  rw [ht, hm, hn, hv]
  simp [facetDiv, hj, hj', sideLoop_eq, sideTerm, Mesh3.dSh, Mesh3.dSv, dx_zero, dS_zero, source, exFields]

/-- A boundary condition with a volume flux raises an error when the form is built: the equation divides by
`boundary_len`, a dictionary. -/
theorem C86_flux_violated (f : BFuncs e) (hu : f.uv = none) (hf : f.flux.isSome) (b : e.m.B) (c : ℝ)
    (u : Fin 3 → ℝ) : bndFunctions f b c u = none := by
  unfold bndFunctions
  rw [hu]
  cases hff : f.flux with
  | none => rw [hff] at hf; cases hf
  | some q => rfl

end Verif.Tracer3
