import Verif.Still.Props
import Verif.Swe.Props2
import Verif.Mom3.Props4
import Verif.Tracer3.Props

/-!
C135: the weak forms of the 2D mode, of the momentum equation, of the tracer equations and of the internal pressure gradient vanish at
rest.
-/

namespace Verif.Still

open Verif.Dg Verif.Ext

variable {e : Mesh3}

/-- No velocity. -/
noncomputable def none3 (e : Mesh3) : Vc e.m := fun _ => cst e.m 0

/-- A field that is absent or zero. -/
def Zero {α : Type} (z : α) (f : Option α) : Prop := ∀ u, f = some u → u = z

/-- The conditions at the sides prescribe no flow. -/
def Calm (bc : ℕ → Option (Mom3.BFuncs e)) : Prop := ∀ k f, bc k = some f →
  (∀ u, f.uv = some u → ∀ b i, u b i = 0) ∧ (∀ u, f.un = some u → ∀ b, u b = 0) ∧ ∀ q, f.flux = some q → ∀ b, q b = 0

theorem total_none3 (F : Mom3.Fields e) (h : Zero (none3 e) F.uvDav) : Mom3.total F (none3 e) = none3 e := by
  unfold Mom3.total
  cases hd : F.uvDav with
  | none => rfl
  | some d =>
    rw [h d hd]
    funext i p
    apply Jet.ext
    · simp [none3]
    · funext j; simp [none3]

theorem vertVelo_zero (F : Mom3.Fields e) (h : Zero (cst e.m 0) F.wMesh) : Mom3.vertVelo F (cst e.m 0) = cst e.m 0 := by
  unfold Mom3.vertVelo
  cases hd : F.wMesh with
  | none => rfl
  | some d =>
    rw [h d hd]
    funext p
    apply Jet.ext
    · simp
    · funext j; simp

theorem extF_zero (T : Mom3.Term e) (F : Mom3.Fields e) (bc : ℕ → Option (Mom3.BFuncs e)) (hbc : Calm bc) (k : ℕ) (f : Mom3.BFuncs e)
    (hf : bc k = some f) (b : e.m.B) (i : Fin 3) : Mom3.extF T F f k (none3 e) b i = 0 := by
  obtain ⟨h1, h2, h3⟩ := hbc k f hf
  unfold Mom3.extF Mom3.extUv
  split
  · simp [none3]
  · cases hu : f.uv with
    | some u => simp [h1 u hu]
    | none =>
      cases hn : f.un with
      | some u => simp [h2 u hn]
      | none =>
        cases hq : f.flux with
        | some q => simp [h3 q hq]
        | none => simp [none3]

/-- C135: without flow, pressure gradient, wind and source every term of the 3D momentum equation vanishes, for all options, viscosities
and drag coefficients, with closed sides or sides that prescribe no flow. -/
theorem C135_momentum (T : Mom3.Term e) (F : Mom3.Fields e) (bc : ℕ → Option (Mom3.BFuncs e)) (test : Vc e.m)
    (hbc : Calm bc) (h1 : Zero (none3 e) F.uvDav) (h2 : Zero (cst e.m 0) F.w) (h3 : Zero (cst e.m 0) F.wMesh)
    (h4 : Zero (none3 e) F.intPg) (h5 : F.source = none) (h6 : F.wind = none) :
    Mom3.residual T F bc (none3 e) (none3 e) test = 0 := by
  have ht := total_none3 F h1
  have hv : ∀ i p, (none3 e i p).v = 0 := fun i p => rfl
  have hg : ∀ i p j, (none3 e i p).g j = 0 := fun i p j => rfl
  have hj : ∀ i s k, jumpN (none3 e i) s k = 0 := fun i s k => by simp [jumpN, none3]
  have a1 : Mom3.pressureGradient F test = 0 := by
    unfold Mom3.pressureGradient
    cases hp : F.intPg with
    | none => rfl
    | some pg => rw [h4 pg hp]; simp [hv, Mom3.h2, dx_zero]
  have a2 : Mom3.hAdvection T F bc (none3 e) (none3 e) test = 0 := by
    unfold Mom3.hAdvection
    split
    · have hside : ∀ b : e.m.B, Mom3.sideTerm T F (bc (e.m.marker b)) (e.m.marker b) (none3 e) test b = 0 := by
        intro b
        unfold Mom3.sideTerm
        cases hb : bc (e.m.marker b) with
        | none => simp [Mom3.wall, hv, Mom3.h2]
        | some f =>
          have := extF_zero T F bc hbc _ f hb b
          simp [Mom3.openSide, hv, Mom3.h2, this]
      have hav : ∀ i s, avg (none3 e i) s = 0 := fun i s => by simp [avg, none3]
      have hju : ∀ i s, jump (none3 e i) s = 0 := fun i s => by simp [jump, none3]
      simp only [ht, hv, hav, hju, Mom3.h2, mul_zero, zero_mul, add_zero, neg_zero, dx_zero, sideLoop_eq, hside]
      simp [Mesh3.dSv, Mesh3.dSh, Mesh3.dsurf, dS_zero]
    · rfl
  have a3 : Mom3.vAdvection T F (none3 e) test = 0 := by
    unfold Mom3.vAdvection
    cases hw : F.w with
    | none => rfl
    | some w =>
      rw [h2 w hw]
      simp only []
      split
      · have hju : ∀ i s, jump (none3 e i) s = 0 := fun i s => by simp [jump, none3]
        have hav : ∀ s, avg (cst e.m 0) s = 0 := fun s => by simp [avg]
        simp only [ht, vertVelo_zero F h3, hv, hav, hju, Mom3.h2, mul_zero, zero_mul, add_zero, neg_zero, dx_zero]
        simp [Mesh3.dSh, Mesh3.dsurf, dS_zero]
      · rfl
  have a4 : Mom3.hViscosity T F (none3 e) test = 0 := by
    unfold Mom3.hViscosity
    cases hn : F.viscH with
    | none => rfl
    | some mu =>
      have hs : ∀ i s j, Mom3.avgStress mu (none3 e i) s j = 0 := fun i s j => by simp [Mom3.avgStress, hg]
      simp only [ht, hg, hj, hs, Mom3.h2, mul_zero, zero_mul, add_zero, neg_zero, dx_zero, sub_self, Finset.sum_const_zero, dS_zero]
      simp [Mesh3.dbottom, Mesh3.dsurf]
  have a5 : Mom3.vViscosity T F (none3 e) test = 0 := by
    unfold Mom3.vViscosity
    cases hn : F.viscV with
    | none => rfl
    | some mu =>
      have hs : ∀ i s j, Mom3.avgStress mu (none3 e i) s j = 0 := fun i s j => by simp [Mom3.avgStress, hg]
      simp only [hg, hj, hs, mul_zero, sub_self, Finset.sum_const_zero, dx_zero]
      simp [Mesh3.dSh, dS_zero]
  have a6 : Mom3.bottomFriction T F (none3 e) (none3 e) test = 0 := by
    unfold Mom3.bottomFriction
    simp [ht, hv, Mom3.h2, Mesh3.dbottom]
  have a7 : Mom3.linearDrag F (none3 e) test = 0 := by
    unfold Mom3.linearDrag
    cases F.linDrag <;> simp [ht, hv, dx_zero]
  have a8 : Mom3.coriolis F (none3 e) test = 0 := by
    unfold Mom3.coriolis
    cases F.coriolis <;> simp [hv, dx_zero]
  have a9 : Mom3.source T F test = 0 := by
    unfold Mom3.source Mom3.windStress
    rw [h5, h6]
    cases F.viscV <;> simp
  unfold Mom3.residual
  rw [a1, a2, a3, a4, a5, a6, a7, a8, a9]
  simp

/-! ### Tracers -/

/-- The conditions at the sides prescribe no flow. -/
def CalmT (bc : ℕ → Option (Tracer3.BFuncs e)) : Prop := ∀ k f, bc k = some f →
  (∀ u, f.uv = some u → ∀ b i, u b i = 0) ∧ (∀ u, f.un = some u → ∀ b, u b = 0)

theorem side_zero (T : Tracer3.Term e) (bc : ℕ → Option (Tracer3.BFuncs e)) (hbc : CalmT bc) (c test : Sc e.m) (b : e.m.B) :
    Tracer3.sideTerm T (none3 e) (bc (e.m.marker b)) c test b = 0 := by
  unfold Tracer3.sideTerm
  cases hb : bc (e.m.marker b) with
  | none => rfl
  | some f =>
    obtain ⟨h1, h2⟩ := hbc _ f hb
    have hu : ∀ i, (Tracer3.bndF f b (c (.bnd b)).v fun _ => (0 : ℝ)).2 i = 0 := by
      intro i
      unfold Tracer3.bndF Tracer3.bndFunctions
      cases hu : f.uv with
      | some u => simp [h1 u hu]
      | none =>
        cases hq : f.flux with
        | some q => simp
        | none =>
          cases hn : f.un with
          | some u => simp [h2 u hn]
          | none => simp
    have hn : normalH (none3 e) b = 0 := by simp [normalH, none3]
    have hv : ∀ i, (none3 e i (.bnd b)).v = 0 := fun i => rfl
    simp only [Tracer3.sideFlux, hv, hu, hn]
    simp

/-- C135: advection by water at rest changes no tracer, whatever its distribution and the values prescribed at the sides. -/
theorem C135_advection (T : Tracer3.Term e) (F : Tracer3.Fields e) (bc : ℕ → Option (Tracer3.BFuncs e)) (c test : Sc e.m)
    (hbc : CalmT bc) (h0 : Zero (none3 e) F.uv) (h1 : Zero (none3 e) F.uvDav) (h2 : Zero (cst e.m 0) F.w)
    (h3 : Zero (cst e.m 0) F.wMesh) : Tracer3.hAdvection T F bc c test + Tracer3.vAdvection T F c test = 0 := by
  have a1 : Tracer3.hAdvection T F bc c test = 0 := by
    unfold Tracer3.hAdvection
    cases hu : F.uv with
    | none => rfl
    | some uv =>
      have ht : Tracer3.totalUv F uv = none3 e := by
        rw [h0 uv hu]
        unfold Tracer3.totalUv
        cases hd : F.uvDav with
        | none => rfl
        | some d =>
          rw [h1 d hd]
          funext i p
          apply Jet.ext
          · simp [none3]
          · funext j; simp [none3]
      have hv : ∀ i p, (none3 e i p).v = 0 := fun i p => rfl
      have hun : ∀ s, Tracer3.unAv (none3 e) s = 0 := fun s => by simp [Tracer3.unAv, avg, none3]
      have hfd : ∀ s, facetDiv (none3 e) test s = 0 := fun s => by simp [facetDiv, avg, none3]
      have hn : ∀ b, normalH (none3 e) b = 0 := fun b => by simp [normalH, none3]
      simp only [ht, hv, hun, hfd, hn, zero_mul, mul_zero, Finset.sum_const_zero, neg_zero, dx_zero, sideLoop_eq,
        side_zero T bc hbc c test, abs_zero]
      simp [Mesh3.dSv, Mesh3.dSh, Mesh3.dsurf, dS_zero]
  have a2 : Tracer3.vAdvection T F c test = 0 := by
    unfold Tracer3.vAdvection
    cases hw : F.w with
    | none => rfl
    | some w =>
      have hvv : Tracer3.vertVelo F w = cst e.m 0 := by
        rw [h2 w hw]
        unfold Tracer3.vertVelo
        cases hd : F.wMesh with
        | none => rfl
        | some d =>
          rw [h3 d hd]
          funext p
          apply Jet.ext
          · simp
          · funext j; simp
      have hav : ∀ s, avg (cst e.m 0) s = 0 := fun s => by simp [avg]
      simp only [hvv, hav, cst_apply, Jet.const_v, zero_mul, mul_zero, neg_zero, dx_zero, abs_zero]
      simp [Mesh3.dSh, Mesh3.dsurf, dS_zero]
  rw [a1, a2, add_zero]

/-- C135: in water at rest the residual of a tracer equation vanishes if there is no source and either the tracer is uniform or there is
no diffusion. -/
theorem C135_tracer (T : Tracer3.Term e) (F : Tracer3.Fields e) (bc : ℕ → Option (Tracer3.BFuncs e)) (c test : Sc e.m)
    (hflat : e.m.Flat) (hbc : CalmT bc) (h0 : Zero (none3 e) F.uv) (h1 : Zero (none3 e) F.uvDav) (h2 : Zero (cst e.m 0) F.w)
    (h3 : Zero (cst e.m 0) F.wMesh) (h4 : F.source = none)
    (h5 : (∃ k, c = cst e.m k) ∨ (F.diffH = none ∧ F.diffV = none)) : Tracer3.residual T F bc c test = 0 := by
  have hd : Tracer3.hDiffusion T F c test = 0 ∧ Tracer3.vDiffusion T F c test = 0 := by
    rcases h5 with ⟨k, rfl⟩ | ⟨ha, hb⟩
    · exact Tracer3.C86_diffusion T F test k hflat
    · simp [Tracer3.hDiffusion, Tracer3.vDiffusion, ha, hb]
  unfold Tracer3.residual
  rw [C135_advection T F bc c test hbc h0 h1 h2 h3, hd.1, hd.2]
  simp [Tracer3.source, h4]

/-! ### The 2D mode -/

/-- C135: the forms of the 2D mode vanish at rest also with the residual of the 3D velocity among the sources, which is zero there. -/
theorem C135_mode2d {m : Mesh 2} (T : Swe.Term m) (K : Swe.Coeffs m) (E : ℝ) (bc : ℕ → Option (Swe.Funcs m)) (w : Vc m) (phi : Sc m)
    (h : Swe.Still E bc) (hd : T.etaDg = true → DivExact m w) (hflat : m.Flat) (hun : T.uDg = true)
    (h1 : K.wind = none) (h2 : K.pressure = none) (h3 : Zero (Swe.rest m) K.source) (h4 : K.volume = none)
    (h5 : ∀ u, K.uvBottom = some u → u = Swe.rest m) :
    Swe.momentum T K bc (Swe.rest m) (cst m E) (Swe.rest m) (cst m E) w = 0 ∧
    Swe.continuity T K bc (Swe.rest m) (cst m E) (Swe.rest m) (cst m E) phi = 0 := by
  obtain ⟨a, b⟩ := Swe.C77_rest T { K with source := none } E bc w phi h hd hflat hun h1 h2 rfl h4 h5
  refine ⟨?_, b⟩
  have hs : Swe.momentumSource K.source w = 0 := by
    unfold Swe.momentumSource
    cases hk : K.source with
    | none => rfl
    | some s => rw [h3 s hk]; simp [Swe.rest, dx_zero]
  unfold Swe.momentum at a ⊢
  rw [hs]
  exact a

/-! ### Internal pressure gradient -/

/-- C135: a continuous head that does not vary in the horizontal gives no pressure gradient, for both kinds of spaces. -/
theorem C135_pressure (T : Mom3.Term e) (bc : ℕ → Option (Mom3.BFuncs e)) (r : Sc e.m) (test : Vc e.m) (dg : Bool)
    (scalar : Option ℝ) (hd : Mom3.Excess bc r fun _ => 0) (hflat : e.m.Flat) (hex : DivExact e.m fun i => r * Mom3.level test i)
    (hcont : ∀ s, (r (.plus s)).v = (r (.minus s)).v) (hr : ∀ x, (r x).g 0 = 0 ∧ (r x).g 1 = 0) :
    Mom3.intPgForm T dg scalar bc r test = 0 := by
  obtain ⟨a, b⟩ := Mom3.C91_consistent T bc r test scalar hd hflat hex hcont
  cases dg with
  | true => exact b hr
  | false => rw [← a]; exact b hr

/-! ### The residuals of the solver -/

/-- The assembled residuals at rest are weak forms whose coefficients, boundary conditions and test functions satisfy the conditions of
the theorems above. -/
structure Forms {E2 U2 U W H A σ X J2 J JX : Type} [AddCommGroup U2] [AddCommGroup U] [AddCommGroup W]
    (P : Env E2 U2 U W H A σ X (J2 → ℝ) (J → ℝ) (JX → ℝ)) (E : E2) (g : H → ℝ) (c : σ → X) (m : Mesh 2) (e : Mesh3) : Prop where
  flat2 : m.Flat
  flat : e.m.Flat
  mode2d : ∀ n i j, ∃ (T : Swe.Term m) (K : Swe.Coeffs m) (z : ℝ) (bc : ℕ → Option (Swe.Funcs m)) (w : Vc m) (phi : Sc m),
    Swe.Still z bc ∧ (T.etaDg = true → DivExact m w) ∧ T.uDg = true ∧ K.wind = none ∧ K.pressure = none ∧
    Zero (Swe.rest m) K.source ∧ K.volume = none ∧ (∀ u, K.uvBottom = some u → u = Swe.rest m) ∧
    P.res2 n i 0 (E, 0) (E, 0) j = Swe.momentum T K bc (Swe.rest m) (cst m z) (Swe.rest m) (cst m z) w +
      Swe.continuity T K bc (Swe.rest m) (cst m z) (Swe.rest m) (cst m z) phi
  momentum : ∀ n i a j, ∃ (T : Mom3.Term e) (F : Mom3.Fields e) (bc : ℕ → Option (Mom3.BFuncs e)) (test : Vc e.m),
    Calm bc ∧ Zero (none3 e) F.uvDav ∧ Zero (cst e.m 0) F.w ∧ Zero (cst e.m 0) F.wMesh ∧ Zero (none3 e) F.intPg ∧
    F.source = none ∧ F.wind = none ∧ P.resU n i (calm g E a) 0 j = Mom3.residual T F bc (none3 e) (none3 e) test
  tracer : ∀ n i k a j, ∃ (T : Tracer3.Term e) (F : Tracer3.Fields e) (bc : ℕ → Option (Tracer3.BFuncs e)) (f test : Sc e.m),
    CalmT bc ∧ Zero (none3 e) F.uv ∧ Zero (none3 e) F.uvDav ∧ Zero (cst e.m 0) F.w ∧ Zero (cst e.m 0) F.wMesh ∧ F.source = none ∧
    ((∃ z, f = cst e.m z) ∨ (F.diffH = none ∧ F.diffV = none)) ∧ P.resX n i k (calm g E a) (c k) j = Tracer3.residual T F bc f test

/-- C135: with these weak forms all residuals of the coupled solver vanish at rest, as `C135_two_stage` and `C135_leap_frog` ask. -/
theorem C135_forms {E2 U2 U W H A σ X J2 J JX : Type} [AddCommGroup U2] [AddCommGroup U] [AddCommGroup W]
    (P : Env E2 U2 U W H A σ X (J2 → ℝ) (J → ℝ) (JX → ℝ)) (E : E2) (g : H → ℝ) (c : σ → X) (m : Mesh 2) (e : Mesh3)
    (h : Forms P E g c m e) :
    (∀ n i, P.res2 n i 0 (E, 0) (E, 0) = 0) ∧ (∀ n i a, P.resU n i (calm g E a) 0 = 0) ∧
    ∀ n i k a, P.resX n i k (calm g E a) (c k) = 0 := by
  refine ⟨fun n i => ?_, fun n i a => ?_, fun n i k a => ?_⟩
  · funext j
    obtain ⟨T, K, z, bc, w, phi, a1, a2, a3, a4, a5, a6, a7, a8, a9⟩ := h.mode2d n i j
    obtain ⟨b1, b2⟩ := C135_mode2d T K z bc w phi a1 a2 h.flat2 a3 a4 a5 a6 a7 a8
    rw [a9, b1, b2]; simp
  · funext j
    obtain ⟨T, F, bc, test, a1, a2, a3, a4, a5, a6, a7, a8⟩ := h.momentum n i a j
    rw [a8, C135_momentum T F bc test a1 a2 a3 a4 a5 a6 a7]; rfl
  · funext j
    obtain ⟨T, F, bc, f, test, a1, a2, a3, a4, a5, a6, a7, a8⟩ := h.tracer n i k a j
    rw [a8, C135_tracer T F bc f test h.flat a1 a2 a3 a4 a5 a6 a7]; rfl

/-! ### Example: a tank of water at level 3 -/

/-- Viscosity, drag and Coriolis force, the fields of the solver from its state; all fields are uniform. -/
noncomputable def exMom (v : View ℝ ℝ ℝ Unit Unit) : Mom3.Fields tank where
  uvDav := some fun _ => cst tank.m v.dav
  eta := cst tank.m v.ed
  w := some (cst tank.m v.w)
  wMesh := some (cst tank.m (v.ws ()))
  lfFactor := 1
  viscH := some (cst tank.m 1)
  viscV := some (cst tank.m 1)
  drag := some (cst tank.m 1)
  linDrag := some (cst tank.m 1)
  coriolis := some (cst tank.m 1)
  intPg := some fun _ => cst tank.m v.pg

/-- The fields of the tracer equation. -/
noncomputable def exTr (v : View ℝ ℝ ℝ Unit Unit) : Tracer3.Fields tank :=
  ⟨some fun _ => cst tank.m v.uv, some fun _ => cst tank.m v.dav, cst tank.m v.ed, some (cst tank.m v.w), some (cst tank.m (v.ws ())), 1,
    some (cst tank.m 1), some (cst tank.m 1), none⟩

/-- A boundary of elevation 3 and one without flow. -/
noncomputable def exBc2 : ℕ → Option (Swe.Funcs square) := fun k =>
  if k = 1 then some [.elev fun _ => 3] else if k = 3 then some [.un fun _ => 0] else none

/-- A side without flow. -/
def exBcU : ℕ → Option (Mom3.BFuncs tank) := fun k => if k = 1 then some { un := some fun _ => 0 } else none

/-- A side that prescribes the tracer. -/
def exBcX : ℕ → Option (Tracer3.BFuncs tank) := fun k => if k = 1 then some { value := some fun _ => 35 } else none

open Classical in
/-- A solver with the weak forms of the square and of the tank, for fields that are uniform; the tests are any fields. -/
noncomputable def exEnv (w : Fin 2 → Quad × Quad) (phi : Sc square) (test : Vc tank.m) (t : Sc tank.m) :
    Env ℝ ℝ ℝ ℝ Unit Unit Bool ℝ (Unit → ℝ) (Unit → ℝ) (Unit → ℝ) where
  dt := 60
  ale := true
  limitT := true
  limitU := true
  implicit := true
  baroclinic := true
  cg := fun z _ => z
  average := fun _ u => u
  copy := fun u => u
  wSolve := fun _ u => -u
  head := fun _ c => c true - 35
  mass2 := fun u _ => u.1 + u.2
  res2 := fun _ _ sp u nl _ =>
    let K : Swe.Coeffs square := { Swe.noCoeffs with nu := some (cst square 1), source := some fun _ => cst square sp }
    Swe.momentum Swe.exTerm K exBc2 (fun _ => cst square u.2) (cst square u.1) (fun _ => cst square nl.2) (cst square nl.1)
      (fun i => squareField (w i).1 (w i).2) +
    Swe.continuity Swe.exTerm K exBc2 (fun _ => cst square u.2) (cst square u.1) (fun _ => cst square nl.2) (cst square nl.1) phi
  solve2 := fun F k => if F k = 0 then k else if h : ∃ x, F x = 0 then h.choose else k
  massU := fun _ u _ => u
  invU := fun _ f => f ()
  resU := fun _ _ v u _ => Mom3.residual Mom3.exTerm (exMom v) exBcU (fun _ => cst tank.m u) (fun _ => cst tank.m u) test
  massX := fun _ u _ => u
  invX := fun _ f => f ()
  resX := fun _ _ _ v u _ => Tracer3.residual Tracer3.exTerm (exTr v) exBcX (cst tank.m u) t
  limX := fun _ u => u
  limV := fun _ u => u
  implU := fun _ _ u => u / 2
  implX := fun _ _ _ u => u

theorem exForms (w : Fin 2 → Quad × Quad) (phi : Sc square) (test : Vc tank.m) (t : Sc tank.m) :
    Forms (exEnv w phi test t) 3 (fun _ => 3) (fun _ => 35) square tank where
  flat2 := square_flat
  flat := tank_flat
  mode2d := fun n i j => by
    refine ⟨Swe.exTerm, { Swe.noCoeffs with nu := some (cst square 1), source := some (Swe.rest square) }, 3, exBc2, _, phi, ?_,
      fun _ => square_divExact (fun i => (w i).1) (fun i => (w i).2), rfl, rfl, rfl, ?_, rfl, ?_, rfl⟩
    · intro k l hl f hf
      simp only [exBc2] at hl
      split at hl
      · simp at hl; subst hl; simp at hf; subst hf; intro b; rfl
      · split at hl
        · simp at hl; subst hl; simp at hf; subst hf; intro b; rfl
        · cases hl
    · intro u hu; simpa using hu.symm
    · intro u hu; simp [Swe.noCoeffs] at hu
  momentum := fun n i a j => by
    refine ⟨Mom3.exTerm, exMom (calm (fun _ => 3) 3 a), exBcU, test, ?_, ?_, ?_, ?_, ?_, rfl, rfl, rfl⟩
    · intro k f hf
      simp only [exBcU] at hf
      split at hf
      · simp at hf; subst hf
        exact ⟨fun u hu => (by cases hu), fun u hu => (by cases hu; intro b; rfl), fun u hu => (by cases hu)⟩
      · cases hf
    all_goals (intro u hu; cases hu; rfl)
  tracer := fun n i k a j => by
    refine ⟨Tracer3.exTerm, exTr (calm (fun _ => 3) 3 a), exBcX, cst tank.m 35, t, ?_, ?_, ?_, ?_, ?_, rfl, Or.inl ⟨35, rfl⟩, rfl⟩
    · intro k f hf
      simp only [exBcX] at hf
      split at hf
      · simp at hf; subst hf
        exact ⟨fun u hu => (by cases hu), fun u hu => (by cases hu)⟩
      · cases hf
    all_goals (intro u hu; cases hu; rfl)

theorem exSolves (w : Fin 2 → Quad × Quad) (phi : Sc square) (test : Vc tank.m) (t : Sc tank.m) :
    Solves (exEnv w phi test t) 3 (fun _ => 3) (fun _ => 35) := by
  obtain ⟨a, b, d⟩ := C135_forms _ _ _ _ _ _ (exForms w phi test t)
  refine ⟨fun _ => rfl, fun F k h => if_pos h, ?_, a, rfl, rfl, ?_, fun _ => ?_, rfl, rfl, b, fun _ => rfl, d, fun _ _ => rfl,
    fun _ => rfl, fun _ _ _ => ?_, fun _ _ _ _ => rfl⟩
  · funext x; simp [exEnv]
  · simp [exEnv]
  · simp [exEnv]
  · simp [exEnv]

/-- The water of the example stays at rest and keeps its salinity of 35. -/
example (w : Fin 2 → Quad × Quad) (phi : Sc square) (test : Vc tank.m) (t : Sc tank.m) (semi : Bool) (n : ℕ) :
    let s : StA ℝ ℝ ℝ ℝ Unit Unit Bool ℝ (Unit → ℝ) (Unit → ℝ) :=
      ⟨⟨(3, 0), (0, 0), fun _ => 0⟩, 0, 0, fun _ => 0, fun _ => 0, fun _ => 0, fun _ => 0, ⟨0, 0, 0⟩, 0, 7, 0, fun _ => ⟨35, 0, 0⟩, ()⟩
    (run (exEnv w phi test t) semi (fun _ _ => ()) (fun _ => ()) s n).two.sol = (3, 0) ∧
    ((run (exEnv w phi test t) semi (fun _ _ => ()) (fun _ => ()) s n).tr true).sol = 35 := by
  intro s
  have := C135_two_stage (exSolves w phi test t) semi (fun _ _ => ()) (fun _ => ()) s
    ⟨rfl, rfl, rfl, rfl, fun h => (by cases h), rfl, fun _ => rfl, rfl, fun _ => rfl⟩ n
  exact ⟨this.two, this.tr true⟩

end Verif.Still
