import Verif.Mom3.Model
import Verif.Tracer3.Props2

/-!
C89: advection of momentum on extruded meshes.
-/

namespace Verif.Mom3

open Verif.Dg Verif.Ext

variable {e : Mesh3}

/-- `U` is the velocity whose deviation from the depth average, if that is given, is `u`. -/
def IsTotal (F : Fields e) (u U : Vc e.m) : Prop :=
  (F.uvDav = none ∧ U = u) ∨ ∃ d, F.uvDav = some d ∧ U = fun i => u i + d i

theorem IsTotal.eq {F : Fields e} {u U : Vc e.m} (h : IsTotal F u U) : total F u = U := by
  unfold total
  rcases h with ⟨h, rfl⟩ | ⟨d, h, rfl⟩ <;> rw [h]

/-- The velocity is horizontal. -/
def Horizontal (U : Vc e.m) : Prop := ∀ p, (U 2 p).v = 0

/-- Vertical velocity of the mesh, zero for a fixed mesh. -/
def meshW (F : Fields e) : Sc e.m := F.wMesh.getD (cst e.m 0)

/-- Flow of water out of the moving domain at a point of the surface. -/
def surfaceFlow (F : Fields e) (U : Vc e.m) (w : Sc e.m) (b : e.m.B) : ℝ :=
  normalH U b + ((w (.bnd b)).v - (meshW F (.bnd b)).v) * e.m.nb b 2

/-- The velocity `V` is the one the boundary condition prescribes outside, with interior velocity `U`. -/
def Outside (T : Term e) (F : Fields e) (f : BFuncs e) (k : ℕ) (U : Vc e.m) (b : e.m.B) (V : Fin 3 → ℝ) : Prop :=
  extUv T F f k U b = some V

/-! ### Momentum is advected like two tracers -/

/-- The tracer term with the same members. -/
noncomputable def tTerm (T : Term e) : Tracer3.Term e where
  hdg := T.hdg
  vdg := T.vdg
  symm := true
  lf := T.lf
  sipg := T.sipg
  sipgV := T.sipgV
  p := T.p
  q := T.q
  triangle := T.triangle
  z := T.z

/-- The same fields, with the total velocity. -/
def tFields (F : Fields e) (U : Vc e.m) : Tracer3.Fields e where
  uv := some U
  uvDav := none
  elev := F.eta
  w := F.w
  wMesh := F.wMesh
  lfFactor := F.lfFactor
  diffH := F.viscH
  diffV := F.viscV
  source := none

/-- The boundary condition of component `i` as one of a tracer. -/
noncomputable def tBc (T : Term e) (F : Fields e) (bc : ℕ → Option (BFuncs e)) (U : Vc e.m) (i : Fin 3) :
    ℕ → Option (Tracer3.BFuncs e) := fun k =>
  (bc k).map fun f => { value := some fun b => extF T F f k U b i, uv := some fun b => extF T F f k U b }

/-- The stabilization at closed sides. -/
noncomputable def walls (T : Term e) (F : Fields e) (bc : ℕ → Option (BFuncs e)) (U test : Vc e.m) : ℝ :=
  e.sideLoop fun k b => if bc k = none then wall T F U test b else 0

theorem open_eq (T : Term e) (F : Fields e) (f : BFuncs e) (k : ℕ) (U test : Vc e.m) (b : e.m.B) :
    openSide T F f k U test b =
      Tracer3.sideFlux (tTerm T) U { value := some fun b => extF T F f k U b 0, uv := some fun b => extF T F f k U b }
        (U 0) b * (test 0 (.bnd b)).v +
      Tracer3.sideFlux (tTerm T) U { value := some fun b => extF T F f k U b 1, uv := some fun b => extF T F f k U b }
        (U 1) b * (test 1 (.bnd b)).v := by
  have hu : ∀ x, Tracer3.upwind (tTerm T) x = upwind T x := fun x => rfl
  unfold openSide Tracer3.sideFlux Tracer3.bndF Tracer3.bndFunctions h2
  simp only [Option.getD_some, hu, normalH]
  have hc : e.m.nb b 0 * ((1 / 2) * ((U 0 (.bnd b)).v + extF T F f k U b 0)) +
      e.m.nb b 1 * ((1 / 2) * ((U 1 (.bnd b)).v + extF T F f k U b 1)) =
      (1 / 2) * ((U 0 (.bnd b)).v + extF T F f k U b 0) * e.m.nb b 0 +
      (1 / 2) * ((U 1 (.bnd b)).v + extF T F f k U b 1) * e.m.nb b 1 := by ring
  rw [hc]
  ring

theorem sides_eq (T : Term e) (F : Fields e) (bc : ℕ → Option (BFuncs e)) (U test : Vc e.m) :
    (e.sideLoop fun k b => sideTerm T F (bc k) k U test b) =
      (e.sideLoop fun k b => Tracer3.sideTerm (tTerm T) U (tBc T F bc U 0 k) (U 0) (test 0) b) +
      (e.sideLoop fun k b => Tracer3.sideTerm (tTerm T) U (tBc T F bc U 1 k) (U 1) (test 1) b) +
      walls T F bc U test := by
  unfold walls
  rw [sideLoop_eq, sideLoop_eq, sideLoop_eq, sideLoop_eq, ← dB_add, ← dB_add]
  refine dB_congr fun b => ?_
  by_cases hb : e.face b = .side
  · simp only [hb, if_true]
    cases hbc : bc (e.m.marker b) with
    | none => simp [sideTerm, Tracer3.sideTerm, tBc, hbc]
    | some f =>
      simp only [sideTerm, Tracer3.sideTerm, tBc, hbc, Option.map_some]
      rw [open_eq]; simp
  · simp [hb]

/-- Horizontal advection with `solution_old = solution`. -/
theorem hAdvection_eq (T : Term e) (F : Fields e) (bc : ℕ → Option (BFuncs e)) (u U test : Vc e.m)
    (hU : IsTotal F u U) (hnl : T.nonlinear = true) (hdg : T.hdg = true) (hor : Horizontal U) :
    hAdvection T F bc u u test =
      Tracer3.hAdvection (tTerm T) (tFields F U) (tBc T F bc U 0) (U 0) (test 0) +
      Tracer3.hAdvection (tTerm T) (tFields F U) (tBc T F bc U 1) (U 1) (test 1) - walls T F bc U test := by
  have ht : Tracer3.totalUv (tFields F U) U = U := rfl
  have hl : (tTerm T).lf = T.lf := rfl
  have hf : (tFields F U).lfFactor = F.lfFactor := rfl
  rw [Tracer3.hAdvection_eq (tTerm T) (tFields F U) _ U _ _ rfl hdg rfl,
    Tracer3.hAdvection_eq (tTerm T) (tFields F U) _ U _ _ rfl hdg rfl, ht, hl, hf]
  unfold hAdvection
  rw [hU.eq]
  simp only [hnl, hdg, if_true]
  rw [sides_eq]
  have hun : ∀ s, unAv U s = Tracer3.unAv U s := fun s => rfl
  have hup : ∀ (c : Sc e.m) q s, uvUp T c q s = Tracer3.cUp (tTerm T) c q s := fun c q s => rfl
  have hav : ∀ s, avg (U 2) s = 0 := fun s => by unfold avg; rw [hor, hor]; ring
  have a1 : (e.m.dx fun x => -(h2 fun i => h2 fun j => (test i (.cell x)).g j * (U i (.cell x)).v *
      (U j (.cell x)).v)) =
      (e.m.dx fun x => -((U 0 (.cell x)).v * ∑ i, (U i (.cell x)).v * (test 0 (.cell x)).g i)) +
      e.m.dx fun x => -((U 1 (.cell x)).v * ∑ i, (U i (.cell x)).v * (test 1 (.cell x)).g i) := by
    rw [← dx_add]
    refine dx_congr fun x => ?_
    simp only [Fin.sum_univ_three, h2]
    rw [hor]; ring
  have af : ∀ s, (h2 fun i => h2 fun j => uvUp T (U i) (unAv U s) s * avg (U j) s * jumpN (test i) s j) =
      Tracer3.cUp (tTerm T) (U 0) (Tracer3.unAv U s) s * facetDiv U (test 0) s +
      Tracer3.cUp (tTerm T) (U 1) (Tracer3.unAv U s) s * facetDiv U (test 1) s := by
    intro s
    simp only [h2, hun, hup, facetDiv, hav]; ring
  have as : ∀ s, (1 / 2) * |unAv U s| * F.lfFactor * (h2 fun i => jump (test i) s * jump (U i) s) =
      (1 / 2) * |Tracer3.unAv U s| * F.lfFactor * (jump (test 0) s * jump (U 0) s) +
      (1 / 2) * |Tracer3.unAv U s| * F.lfFactor * (jump (test 1) s * jump (U 1) s) := by
    intro s
    simp only [h2, hun]; ring
  have a5 : (e.dsurf fun b => h2 fun i => h2 fun j => (U i (.bnd b)).v * (U j (.bnd b)).v * (test i (.bnd b)).v *
      e.m.nb b j) =
      (e.dsurf fun b => (U 0 (.bnd b)).v * normalH U b * (test 0 (.bnd b)).v) +
      e.dsurf fun b => (U 1 (.bnd b)).v * normalH U b * (test 1 (.bnd b)).v := by
    rw [← dsurf_add]
    exact dsurf_congr fun b _ => by simp only [h2, normalH]; ring
  simp only [af, as]
  rw [a1, a5, dSv_add, dSh_add, dSv_add, dSh_add]
  split <;> ring

theorem vAdvection_eq (T : Term e) (F : Fields e) (u U test : Vc e.m) (w : Sc e.m)
    (hU : IsTotal F u U) (hw : F.w = some w) (hnl : T.nonlinear = true) (hdg : T.vdg = true) :
    vAdvection T F u test =
      Tracer3.vAdvection (tTerm T) (tFields F U) (U 0) (test 0) +
      Tracer3.vAdvection (tTerm T) (tFields F U) (U 1) (test 1) := by
  have hl : (tTerm T).lf = T.lf := rfl
  have hf : (tFields F U).lfFactor = F.lfFactor := rfl
  have hd : (tTerm T).vdg = true := hdg
  have hw' : (tFields F U).w = some w := hw
  have hv : Tracer3.vertVelo (tFields F U) w = vertVelo F w := rfl
  have hup : ∀ (c : Sc e.m) q s, uvUp T c q s = Tracer3.cUp (tTerm T) c q s := fun c q s => rfl
  unfold vAdvection Tracer3.vAdvection
  rw [hw, hw', hU.eq]
  simp only [hnl, hdg, hd, hl, hf, hv, if_true, hup, h2]
  set W := vertVelo F w
  have a1 : (e.m.dx fun x => -((test 0 (.cell x)).g 2 * (U 0 (.cell x)).v * (W (.cell x)).v +
      (test 1 (.cell x)).g 2 * (U 1 (.cell x)).v * (W (.cell x)).v)) =
      (e.m.dx fun x => -((U 0 (.cell x)).v * (W (.cell x)).v * (test 0 (.cell x)).g 2)) +
      e.m.dx fun x => -((U 1 (.cell x)).v * (W (.cell x)).v * (test 1 (.cell x)).g 2) := by
    rw [← dx_add]
    exact dx_congr fun x => by ring
  have a3 : (e.dsurf fun b => (U 0 (.bnd b)).v * (W (.bnd b)).v * (test 0 (.bnd b)).v * e.m.nb b 2 +
      (U 1 (.bnd b)).v * (W (.bnd b)).v * (test 1 (.bnd b)).v * e.m.nb b 2) =
      (e.dsurf fun b => (U 0 (.bnd b)).v * (W (.bnd b)).v * e.m.nb b 2 * (test 0 (.bnd b)).v) +
      e.dsurf fun b => (U 1 (.bnd b)).v * (W (.bnd b)).v * e.m.nb b 2 * (test 1 (.bnd b)).v := by
    rw [← dsurf_add]
    exact dsurf_congr fun b _ => by ring
  rw [a1, a3, dSh_add]
  split
  · have a2 : (e.dSh fun s => (1 / 2) * |avg W s * e.m.nm s 2| * F.lfFactor *
        (jump (test 0) s * jump (U 0) s + jump (test 1) s * jump (U 1) s)) =
        (e.dSh fun s => (1 / 2) * |avg W s * e.m.nm s 2| * F.lfFactor * (jump (test 0) s * jump (U 0) s)) +
        e.dSh fun s => (1 / 2) * |avg W s * e.m.nm s 2| * F.lfFactor * (jump (test 1) s * jump (U 1) s) := by
      rw [← dSh_add]
      exact dSh_congr fun s _ => by ring
    rw [a2]; ring
  · ring

/-! ### Uniform flow -/

/-- C89: a uniform flow is not changed by advection.  For a vertical velocity that satisfies its equation, with closed
sides along the flow and boundary conditions that prescribe the same velocity, the terms give the velocity
times the form of the vertical mesh velocity, that is the rate of change of the volume (C86). -/
theorem C89_uniform (T : Term e) (F : Fields e) (bc : ℕ → Option (BFuncs e)) (u U test : Vc e.m) (w : Sc e.m)
    (k : Fin 3 → ℝ) (hU : IsTotal F u U) (hk : ∀ i, U i = cst e.m (k i)) (hk2 : k 2 = 0) (hw : F.w = some w)
    (hnl : T.nonlinear = true) (hhd : T.hdg = true) (hvd : T.vdg = true)
    (hsolve : ∀ i, i ≠ 2 → Solves (fun j => (bc j).isSome) U w (test i))
    (hclosed : ∀ b, e.face b = .side → bc (e.m.marker b) = none → k 0 * e.m.nb b 0 + k 1 * e.m.nb b 1 = 0)
    (hopen : ∀ b j f, bc j = some f → Outside T F f j U b k) :
    hAdvection T F bc u u test + vAdvection T F u test =
      k 0 * wLeft (meshW F) (test 0) + k 1 * wLeft (meshW F) (test 1) := by
  have hor : Horizontal U := fun p => by rw [hk 2, hk2]; rfl
  have hwall : walls T F bc U test = 0 := by
    unfold walls
    rw [sideLoop_eq]
    refine Finset.sum_eq_zero fun b _ => ?_
    by_cases hb : e.face b = .side
    · simp only [hb, if_true]
      split
      · next hn =>
        have h0 : (∑ i, (U i (.bnd b)).v * e.m.nb b i) = 0 := by
          rw [Fin.sum_univ_three, hk 0, hk 1, hk 2, hk2]
          simp only [cst_apply, Jet.const_v]
          linarith [hclosed b hb hn]
        unfold wall
        simp only [h0]
        simp [h2]
      · simp
    · simp [hb]
  rw [hAdvection_eq T F bc u U test hU hnl hhd hor, vAdvection_eq T F u U test w hU hw hnl hvd, hwall]
  have key : ∀ i : Fin 3, i ≠ 2 →
      Tracer3.hAdvection (tTerm T) (tFields F U) (tBc T F bc U i) (U i) (test i) +
      Tracer3.vAdvection (tTerm T) (tFields F U) (U i) (test i) = k i * wLeft (meshW F) (test i) := by
    intro i hi
    rw [hk i]
    refine Tracer3.C86_advection (tTerm T) (tFields F U) _ (fun j => (bc j).isSome) U w (test i) (k i) rfl hw hhd
      hvd rfl (hsolve i hi) (fun b _ => hor _) (fun b _ => ?_) ?_
    · unfold tBc; simp
    · intro j f hf v hv b
      unfold tBc at hf
      cases hb : bc j with
      | none => rw [hb] at hf; cases hf
      | some g =>
        rw [hb] at hf
        simp only [Option.map_some, Option.some.injEq] at hf
        subst hf
        simp only [Option.some.injEq] at hv
        subst hv
        have := hopen b j g hb
        unfold Outside at this
        simp only [extF, this, Option.getD_some]
  have k0 := key 0 (by decide)
  have k1 := key 1 (by decide)
  linarith

/-! ### Momentum and energy budgets -/

/-- Momentum of component `i` that leaves through a point of an open side: the flow times the interior value, plus
for inflow, measured with the mean of both sides, the mean flow times the difference. -/
noncomputable def sideOut (U : Vc e.m) (V : Fin 3 → ℝ) (i : Fin 3) (b : e.m.B) : ℝ :=
  let q := normalH U b
  let qm := (q + (V 0 * e.m.nb b 0 + V 1 * e.m.nb b 1)) / 2
  q * (U i (.bnd b)).v + min qm 0 * (V i - (U i (.bnd b)).v)

theorem sideFlux_eq (T : Term e) (F : Fields e) (f : BFuncs e) (k : ℕ) (U : Vc e.m) (i : Fin 3) (b : e.m.B) :
    Tracer3.sideFlux (tTerm T) U { value := some fun b => extF T F f k U b i, uv := some fun b => extF T F f k U b }
      (U i) b = sideOut U (extF T F f k U b) i b := by
  unfold Tracer3.sideFlux Tracer3.bndF Tracer3.bndFunctions sideOut
  simp only [Option.getD_some]
  have hq : e.m.nb b 0 * ((1 / 2) * ((U 0 (.bnd b)).v + extF T F f k U b 0)) +
      e.m.nb b 1 * ((1 / 2) * ((U 1 (.bnd b)).v + extF T F f k U b 1)) =
      (normalH U b + (extF T F f k U b 0 * e.m.nb b 0 + extF T F f k U b 1 * e.m.nb b 1)) / 2 := by
    unfold normalH; ring
  rw [hq]
  set q := (normalH U b + (extF T F f k U b 0 * e.m.nb b 0 + extF T F f k U b 1 * e.m.nb b 1)) / 2
  have hup := Tracer3.upwind_mul (tTerm T) q
  have hmin : min q 0 = (q - |q|) / 2 := by
    rcases le_total q 0 with h | h
    · rw [min_eq_left h, abs_of_nonpos h]; ring
    · rw [min_eq_right h, abs_of_nonneg h]; ring
  rw [hmin]
  linear_combination -(extF T F f k U b i - (U i (.bnd b)).v) * hup

/-- The side integral of a budget: `opn` at open sides, given the outside velocity, and `cls` at closed ones. -/
noncomputable def sides (T : Term e) (F : Fields e) (bc : ℕ → Option (BFuncs e)) (U : Vc e.m)
    (opn : (Fin 3 → ℝ) → e.m.B → ℝ) (cls : e.m.B → ℝ) : ℝ :=
  e.sideLoop fun k b => match bc k with
    | none => cls b
    | some f => opn (extF T F f k U b) b

/-- Factor of the Lax-Friedrichs stabilization. -/
def stab (T : Term e) (F : Fields e) : ℝ := if T.lf then F.lfFactor else 0

/-- Advection of a tracer with a constant test function. -/
theorem tracer_cst (T : Tracer3.Term e) (F : Tracer3.Fields e) (bc : ℕ → Option (Tracer3.BFuncs e)) (uv : Vc e.m)
    (w c : Sc e.m) (a : ℝ) (hu : F.uv = some uv) (hd : F.uvDav = none) (hw : F.w = some w) (hhd : T.hdg = true)
    (hvd : T.vdg = true) (hsy : T.symm = true) (hflat : e.m.Flat) :
    Tracer3.hAdvection T F bc c (cst e.m a) + Tracer3.vAdvection T F c (cst e.m a) =
      -(e.sideLoop fun k b => Tracer3.sideTerm T uv (bc k) c (cst e.m a) b) -
      a * e.dsurf fun b => (normalH uv b + ((w (.bnd b)).v - (Tracer3.meshW F (.bnd b)).v) * e.m.nb b 2) *
        (c (.bnd b)).v := by
  have hj : ∀ s i, jumpN (cst e.m a) s i = 0 := fun s i => by simp [jumpN, hflat s i]
  have hj' : ∀ s, jump (cst e.m a) s = 0 := fun s => by simp [jump]
  have ht : Tracer3.totalUv F uv = uv := by unfold Tracer3.totalUv; rw [hd]
  rw [Tracer3.hAdvection_eq T F bc uv _ _ hu hhd hsy, Tracer3.vAdvection_eq T F w _ _ hw hvd, ht]
  have h1 : (e.dsurf fun b => (c (.bnd b)).v * normalH uv b * (cst e.m a (.bnd b)).v) +
      (e.dsurf fun b => (c (.bnd b)).v * ((w (.bnd b)).v - (Tracer3.meshW F (.bnd b)).v) * e.m.nb b 2 *
        (cst e.m a (.bnd b)).v) =
      a * e.dsurf fun b => (normalH uv b + ((w (.bnd b)).v - (Tracer3.meshW F (.bnd b)).v) * e.m.nb b 2) *
        (c (.bnd b)).v := by
    rw [← dsurf_smul, ← dsurf_add]
    exact dsurf_congr fun b _ => by simp only [cst_apply, Jet.const_v]; ring
  rw [← h1]
  simp [facetDiv, hj, hj', Mesh3.dSh, Mesh3.dSv, dx_zero, dS_zero]
  ring

/-- C89: momentum budget.  With the unit vector `i` as test function advection gives what passes the open sides, what
passes the surface if the mesh does not follow it, and the reaction of the closed sides to flow into them. -/
theorem C89_momentum (T : Term e) (F : Fields e) (bc : ℕ → Option (BFuncs e)) (u U : Vc e.m) (w : Sc e.m)
    (i : Fin 3) (hi : i ≠ 2) (hU : IsTotal F u U) (hor : Horizontal U) (hw : F.w = some w)
    (hnl : T.nonlinear = true) (hhd : T.hdg = true) (hvd : T.vdg = true) (hflat : e.m.Flat) :
    hAdvection T F bc u u (fun j => if j = i then cst e.m 1 else cst e.m 0) +
      vAdvection T F u (fun j => if j = i then cst e.m 1 else cst e.m 0) =
      -sides T F bc U (fun V b => sideOut U V i b)
        (fun b => stab T F * |normalH U b| * normalH U b * e.m.nb b i) -
      e.dsurf fun b => surfaceFlow F U w b * (U i (.bnd b)).v := by
  have hn : ∀ b, (∑ j, (U j (.bnd b)).v * e.m.nb b j) = normalH U b := by
    intro b
    rw [Fin.sum_univ_three, hor]; unfold normalH; ring
  have hside : ∀ (a : Fin 3 → ℝ), (∀ j, j ≠ i → a j = 0) → a i = 1 →
      (e.sideLoop fun k b => Tracer3.sideTerm (tTerm T) U (tBc T F bc U 0 k) (U 0) (cst e.m (a 0)) b) +
      (e.sideLoop fun k b => Tracer3.sideTerm (tTerm T) U (tBc T F bc U 1 k) (U 1) (cst e.m (a 1)) b) +
      walls T F bc U (fun j => cst e.m (a j)) =
      sides T F bc U (fun V b => sideOut U V i b)
        (fun b => stab T F * |normalH U b| * normalH U b * e.m.nb b i) := by
    intro a h0 h1
    unfold walls sides
    rw [sideLoop_eq, sideLoop_eq, sideLoop_eq, sideLoop_eq, ← dB_add, ← dB_add]
    refine dB_congr fun b => ?_
    by_cases hb : e.face b = .side
    · simp only [hb, if_true]
      cases hbc : bc (e.m.marker b) with
      | none =>
        simp only [Tracer3.sideTerm, tBc, hbc, Option.map_none, if_true, wall, hn]
        unfold stab h2
        dsimp only
        have hz : ∀ x : Fin 3, x = 0 ∨ x = 1 ∨ x = 2 := by decide
        rcases hz i with rfl | rfl | rfl
        · rw [h0 1 (by decide), h1]
          split
          · simp; ring
          · simp
        · rw [h0 0 (by decide), h1]
          split
          · simp; ring
          · simp
        · exact absurd rfl hi
      | some f =>
        simp only [Tracer3.sideTerm, tBc, hbc, Option.map_some, reduceCtorEq, if_false, sideFlux_eq]
        have hz : ∀ x : Fin 3, x = 0 ∨ x = 1 ∨ x = 2 := by decide
        rcases hz i with rfl | rfl | rfl
        · rw [h0 1 (by decide), h1]; simp
        · rw [h0 0 (by decide), h1]; simp
        · exact absurd rfl hi
    · simp [hb]
  have htest : (fun j : Fin 3 => if j = i then cst e.m 1 else cst e.m 0) =
      fun j => cst e.m (if j = i then 1 else 0) := by
    funext j; split <;> rfl
  have hs := hside (fun j => if j = i then 1 else 0) (fun j hj => by simp [hj]) (by simp)
  rw [htest, hAdvection_eq T F bc u U _ hU hnl hhd hor, vAdvection_eq T F u U _ w hU hw hnl hvd, ← hs]
  have t0 := tracer_cst (tTerm T) (tFields F U) (tBc T F bc U 0) U w (U 0) (if (0 : Fin 3) = i then 1 else 0) rfl rfl
    hw hhd hvd rfl hflat
  have t1 := tracer_cst (tTerm T) (tFields F U) (tBc T F bc U 1) U w (U 1) (if (1 : Fin 3) = i then 1 else 0) rfl rfl
    hw hhd hvd rfl hflat
  have hsf : (e.dsurf fun b => surfaceFlow F U w b * (U i (.bnd b)).v) =
      (if (0 : Fin 3) = i then 1 else 0) * (e.dsurf fun b => (normalH U b + ((w (.bnd b)).v -
        (Tracer3.meshW (tFields F U) (.bnd b)).v) * e.m.nb b 2) * (U 0 (.bnd b)).v) +
      (if (1 : Fin 3) = i then 1 else 0) * (e.dsurf fun b => (normalH U b + ((w (.bnd b)).v -
        (Tracer3.meshW (tFields F U) (.bnd b)).v) * e.m.nb b 2) * (U 1 (.bnd b)).v) := by
    have hz : ∀ x : Fin 3, x = 0 ∨ x = 1 ∨ x = 2 := by decide
    rcases hz i with rfl | rfl | rfl
    · simp; rfl
    · simp; rfl
    · exact absurd rfl hi
  rw [hsf]
  linear_combination t0 + t1

/-- The sum over the facets of the squares of the jumps of the velocity, weighted with the flow through them. -/
noncomputable def jumps (T : Term e) (F : Fields e) (U : Vc e.m) (w : Sc e.m) : ℝ :=
  let sq : e.m.S → ℝ := fun s => ((U 0 (.plus s)).v - (U 0 (.minus s)).v) ^ 2 + ((U 1 (.plus s)).v - (U 1 (.minus s)).v) ^ 2
  e.m.dS (fun s => (1 + stab T F) / 2 * |(avg (U 0) s * e.m.nm s 0 + avg (U 1) s * e.m.nm s 1)| * sq s) +
  e.dSh fun s => (1 + stab T F) / 2 * |(avg w s - avg (meshW F) s) * e.m.nm s 2| * sq s

/-- C89: kinetic energy.  With the velocity as test function, and less half the contribution of the moving mesh,
advection gives the rate of the kinetic energy: a nonpositive sum over the facets, a loss at closed
sides where the velocity points into them, and what passes the open sides and the surface.
The vertical velocity equation must hold for the squares of the velocity components. -/
theorem C89_energy (T : Term e) (F : Fields e) (bc : ℕ → Option (BFuncs e)) (u U : Vc e.m) (w : Sc e.m)
    (hU : IsTotal F u U) (hor : Horizontal U) (hw : F.w = some w)
    (hnl : T.nonlinear = true) (hhd : T.hdg = true) (hvd : T.vdg = true) (hflat : e.m.Flat)
    (hsolve : ∀ i, i ≠ 2 → Solves (fun j => (bc j).isSome) U w (U i * U i)) :
    hAdvection T F bc u u U + vAdvection T F u U -
        (1 / 2) * (wLeft (meshW F) (U 0 * U 0) + wLeft (meshW F) (U 1 * U 1)) =
      -jumps T F U w -
      sides T F bc U
        (fun V b => (U 0 (.bnd b)).v * sideOut U V 0 b + (U 1 (.bnd b)).v * sideOut U V 1 b -
          normalH U b / 2 * ((U 0 (.bnd b)).v ^ 2 + (U 1 (.bnd b)).v ^ 2))
        (fun b => stab T F * |normalH U b| * normalH U b ^ 2) -
      e.dsurf fun b => surfaceFlow F U w b / 2 * ((U 0 (.bnd b)).v ^ 2 + (U 1 (.bnd b)).v ^ 2) := by
  have hn : ∀ b, (∑ j, (U j (.bnd b)).v * e.m.nb b j) = normalH U b := by
    intro b
    rw [Fin.sum_univ_three, hor]; unfold normalH; ring
  have hav : ∀ s, avg (U 2) s = 0 := fun s => by unfold avg; rw [hor, hor]; ring
  have t : ∀ i : Fin 3, i ≠ 2 → _ := fun i hi =>
    Tracer3.advection_identity (tTerm T) (tFields F U) (tBc T F bc U i) (fun j => (bc j).isSome) U w (U i) rfl hw hhd
      hvd rfl hflat (hsolve i hi) (fun b _ => hor _) hav
  have t0 := t 0 (by decide)
  have t1 := t 1 (by decide)
  rw [hAdvection_eq T F bc u U _ hU hnl hhd hor, vAdvection_eq T F u U _ w hU hw hnl hvd]
  have htot : Tracer3.totalUv (tFields F U) U = U := rfl
  have hm : Tracer3.meshW (tFields F U) = meshW F := rfl
  have hs : ∀ b, Tracer3.surfaceFlow (tFields F U) U w b = surfaceFlow F U w b := fun b => rfl
  have hst : Tracer3.weight (tTerm T) (tFields F U) = 1 + stab T F := rfl
  simp only [htot, hm, hs] at t0 t1
  have hjump : Tracer3.jumps (tTerm T) (tFields F U) U w (U 0) + Tracer3.jumps (tTerm T) (tFields F U) U w (U 1) =
      jumps T F U w := by
    unfold Tracer3.jumps jumps
    rw [hst, htot, hm]
    have a1 : (e.m.dS fun s => (1 / 2) * |Tracer3.unAv U s| * (1 + stab T F) *
        ((U 0 (.plus s)).v - (U 0 (.minus s)).v) ^ 2) + (e.m.dS fun s => (1 / 2) * |Tracer3.unAv U s| * (1 + stab T F) *
        ((U 1 (.plus s)).v - (U 1 (.minus s)).v) ^ 2) =
        e.m.dS fun s => (1 + stab T F) / 2 * |(avg (U 0) s * e.m.nm s 0 + avg (U 1) s * e.m.nm s 1)| *
          (((U 0 (.plus s)).v - (U 0 (.minus s)).v) ^ 2 + ((U 1 (.plus s)).v - (U 1 (.minus s)).v) ^ 2) := by
      rw [← dS_add]
      exact dS_congr fun s => by unfold Tracer3.unAv; ring
    have a2 : (e.dSh fun s => (1 / 2) * |(avg w s - avg (meshW F) s) * e.m.nm s 2| * (1 + stab T F) *
        ((U 0 (.plus s)).v - (U 0 (.minus s)).v) ^ 2) +
        (e.dSh fun s => (1 / 2) * |(avg w s - avg (meshW F) s) * e.m.nm s 2| * (1 + stab T F) *
        ((U 1 (.plus s)).v - (U 1 (.minus s)).v) ^ 2) =
        e.dSh fun s => (1 + stab T F) / 2 * |(avg w s - avg (meshW F) s) * e.m.nm s 2| *
          (((U 0 (.plus s)).v - (U 0 (.minus s)).v) ^ 2 + ((U 1 (.plus s)).v - (U 1 (.minus s)).v) ^ 2) := by
      rw [← dSh_add]
      exact dSh_congr fun s _ => by ring
    simp only
    rw [← a1, ← a2]; ring
  have hside : (e.sideLoop fun k b => Tracer3.sideTerm (tTerm T) U (tBc T F bc U 0 k) (U 0) (U 0) b -
        if (bc k).isSome = true then normalH U b / 2 * (U 0 (.bnd b)).v ^ 2 else 0) +
      (e.sideLoop fun k b => Tracer3.sideTerm (tTerm T) U (tBc T F bc U 1 k) (U 1) (U 1) b -
        if (bc k).isSome = true then normalH U b / 2 * (U 1 (.bnd b)).v ^ 2 else 0) +
      walls T F bc U U =
      sides T F bc U
        (fun V b => (U 0 (.bnd b)).v * sideOut U V 0 b + (U 1 (.bnd b)).v * sideOut U V 1 b -
          normalH U b / 2 * ((U 0 (.bnd b)).v ^ 2 + (U 1 (.bnd b)).v ^ 2))
        (fun b => stab T F * |normalH U b| * normalH U b ^ 2) := by
    unfold walls sides
    rw [sideLoop_eq, sideLoop_eq, sideLoop_eq, sideLoop_eq, ← dB_add, ← dB_add]
    refine dB_congr fun b => ?_
    by_cases hb : e.face b = .side
    · simp only [hb, if_true]
      cases hbc : bc (e.m.marker b) with
      | none =>
        simp only [Tracer3.sideTerm, tBc, hbc, Option.map_none, if_true, wall, hn, Option.isSome_none,
          Bool.false_eq_true, if_false]
        unfold stab h2
        split
        · have : (U 0 (.bnd b)).v * e.m.nb b 0 + (U 1 (.bnd b)).v * e.m.nb b 1 = normalH U b := rfl
          linear_combination |normalH U b| * F.lfFactor * normalH U b * this
        · ring
      | some f =>
        simp only [Tracer3.sideTerm, tBc, hbc, Option.map_some, reduceCtorEq, if_false, sideFlux_eq,
          Option.isSome_some, if_true]
        ring
    · simp [hb]
  have hsurf : (e.dsurf fun b => surfaceFlow F U w b / 2 * ((U 0 (.bnd b)).v ^ 2 + (U 1 (.bnd b)).v ^ 2)) =
      (e.dsurf fun b => surfaceFlow F U w b / 2 * (U 0 (.bnd b)).v ^ 2) +
      e.dsurf fun b => surfaceFlow F U w b / 2 * (U 1 (.bnd b)).v ^ 2 := by
    rw [← dsurf_add]
    exact dsurf_congr fun b _ => by ring
  rw [hsurf, ← hside, ← hjump]
  linear_combination t0 + t1

/-- C89: in a basin with closed sides whose mesh follows the surface, advection does not create kinetic energy. -/
theorem C89_dissipation (T : Term e) (F : Fields e) (u U : Vc e.m) (w : Sc e.m)
    (hU : IsTotal F u U) (hor : Horizontal U) (hw : F.w = some w)
    (hnl : T.nonlinear = true) (hhd : T.hdg = true) (hvd : T.vdg = true) (hflat : e.m.Flat) (hlf : 0 ≤ F.lfFactor)
    (hsolve : ∀ i, i ≠ 2 → Solves (fun _ => false) U w (U i * U i))
    (hsurf : ∀ b, e.face b = .surf → surfaceFlow F U w b = 0) :
    hAdvection T F (fun _ => none) u u U + vAdvection T F u U ≤
      (1 / 2) * (wLeft (meshW F) (U 0 * U 0) + wLeft (meshW F) (U 1 * U 1)) := by
  have h := C89_energy T F (fun _ => none) u U w hU hor hw hnl hhd hvd hflat hsolve
  have h0 : 0 ≤ stab T F := by unfold stab; split <;> simp [hlf]
  have h1 : 0 ≤ jumps T F U w := by
    unfold jumps
    refine add_nonneg (dS_nonneg fun s => ?_) (dSh_nonneg fun s => ?_) <;> positivity
  have h2 : (e.dsurf fun b => surfaceFlow F U w b / 2 * ((U 0 (.bnd b)).v ^ 2 + (U 1 (.bnd b)).v ^ 2)) = 0 := by
    have : (e.dsurf fun b => surfaceFlow F U w b / 2 * ((U 0 (.bnd b)).v ^ 2 + (U 1 (.bnd b)).v ^ 2)) =
        e.dsurf fun _ => 0 := dsurf_congr fun b hb => by rw [hsurf b hb]; ring
    rw [this]; simp [Mesh3.dsurf]
  have h3 : 0 ≤ sides T F (fun _ => none) U
        (fun V b => (U 0 (.bnd b)).v * sideOut U V 0 b + (U 1 (.bnd b)).v * sideOut U V 1 b -
          normalH U b / 2 * ((U 0 (.bnd b)).v ^ 2 + (U 1 (.bnd b)).v ^ 2))
        (fun b => stab T F * |normalH U b| * normalH U b ^ 2) := by
    unfold sides
    rw [sideLoop_eq]
    refine dB_nonneg fun b => ?_
    split
    · positivity
    · exact le_rfl
  linarith

/-! ### Example: the uniform flow through the tank -/

/-- Discontinuous elements with default options. -/
noncomputable def exTerm : Term tank where
  hdg := true
  vdg := true
  nonlinear := true
  lf := true
  friction := true
  sipg := 5
  sipgV := cst tank.m 5
  p := 1
  q := 1
  triangle := true
  bath := cst tank.m 3
  elemH := cst tank.m 1
  blen := fun _ => 1
  z := 0
  kappa := 2 / 5
  rho0 := 1000
  g := 10

/-- Depth average 1/4 of a uniform flow with velocity 1. -/
noncomputable def exFields : Fields tank where
  uvDav := some fun i => cst tank.m (if i = 0 then 1 / 4 else 0)
  eta := cst tank.m 0
  w := some (cst tank.m 1)
  lfFactor := 1

/-- Its deviation. -/
noncomputable def exDev : Vc tank.m := fun i => cst tank.m (if i = 0 then 3 / 4 else 0)

theorem exTotal : IsTotal exFields exDev tankUv := by
  refine Or.inr ⟨_, rfl, ?_⟩
  funext i p
  apply Jet.ext
  · change (if i = 0 then (1 : ℝ) else 0) = (if i = 0 then (3 / 4 : ℝ) else 0) + (if i = 0 then (1 / 4 : ℝ) else 0)
    split <;> norm_num
  · funext j; simp [tankUv, exDev]

/-- The left side prescribes the velocity, the right one takes the interior value. -/
noncomputable def exBc : ℕ → Option (BFuncs tank) := fun k =>
  if k == 1 || k == 2 then
    some (if k = 1 then { uv := some fun _ => ![1, 0, 0] } else { symm := true })
  else none

theorem exBc_isSome : (fun j => (exBc j).isSome) = fun k => k == 1 || k == 2 := by
  funext j
  unfold exBc
  cases (j == 1 || j == 2) <;> rfl

/-- The uniform flow goes on. -/
example (lo up : Fin 3 → Lin) : hAdvection exTerm exFields exBc exDev exDev (fun i => tankField (lo i) (up i)) +
    vAdvection exTerm exFields exDev (fun i => tankField (lo i) (up i)) = 0 := by
  have h0 : ∀ t : Sc tank.m, wLeft (meshW exFields) t = 0 := by
    intro t
    have : meshW exFields = cst tank.m 0 := rfl
    rw [this]
    unfold wLeft Mesh3.dsurf Mesh3.dSh
    simp [avg, dx_zero, dS_zero]
  refine (C89_uniform exTerm exFields exBc exDev tankUv _ (cst tank.m 1) ![1, 0, 0] exTotal (fun i => ?_) rfl rfl rfl
    rfl rfl (fun i _ => ?_) (fun b => ?_) (fun b j f hf => ?_)).trans ?_
  · fin_cases i <;> rfl
  · rw [exBc_isSome]; exact tank_solves _ _
  · change tkFace b = .side → exBc (tkMarker b) = none → (1 : ℝ) * tkN b 0 + 0 * tkN b 1 = 0
    cases b <;> simp [tkFace, exBc, tkMarker, tkN]
  · unfold exBc at hf
    split at hf
    · simp only [Option.some.injEq] at hf
      subst hf
      unfold Outside extUv
      split
      · rfl
      · change some (fun i => (tankUv i (.bnd b)).v) = some ![1, 0, 0]
        congr 1
        funext i
        fin_cases i <;> simp [tankUv]
    · cases hf
  · rw [h0, h0]; simp

/-- Its kinetic energy. -/
example : hAdvection exTerm exFields exBc exDev exDev tankUv + vAdvection exTerm exFields exDev tankUv -
        (1 / 2) * (wLeft (meshW exFields) (tankUv 0 * tankUv 0) + wLeft (meshW exFields) (tankUv 1 * tankUv 1)) =
      -jumps exTerm exFields tankUv (cst tank.m 1) -
      sides exTerm exFields exBc tankUv
        (fun V b => (tankUv 0 (.bnd b)).v * sideOut tankUv V 0 b + (tankUv 1 (.bnd b)).v * sideOut tankUv V 1 b -
          normalH tankUv b / 2 * ((tankUv 0 (.bnd b)).v ^ 2 + (tankUv 1 (.bnd b)).v ^ 2))
        (fun b => stab exTerm exFields * |normalH tankUv b| * normalH tankUv b ^ 2) -
      tank.dsurf fun b => surfaceFlow exFields tankUv (cst tank.m 1) b / 2 *
        ((tankUv 0 (.bnd b)).v ^ 2 + (tankUv 1 (.bnd b)).v ^ 2) := by
  refine C89_energy exTerm exFields exBc exDev tankUv (cst tank.m 1) exTotal (fun p => rfl) rfl rfl rfl rfl tank_flat
    fun i _ => ?_
  have : tankUv i * tankUv i = tankField ⟨if i = 0 then 1 else 0, 0, 0, 0⟩ ⟨if i = 0 then 1 else 0, 0, 0, 0⟩ := by
    rw [← tankField_cst]
    funext p
    apply Jet.ext
    · simp [tankUv]
    · funext j; simp [tankUv]
  rw [this, exBc_isSome]
  exact tank_solves _ _

end Verif.Mom3
