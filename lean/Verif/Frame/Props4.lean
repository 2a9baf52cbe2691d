import Verif.Frame.Props3

/-!
C140 for the momentum equation of the 3D model and the internal pressure gradient.
-/

namespace Verif.Frame

open Verif.Dg Verif.Ext Verif.Mom3

variable {e e' : Mesh3} (V : View3 e e')

/-- Boundary condition of the momentum equation in the new description. -/
def View3.momFuncs (f : Mom3.BFuncs e) : Mom3.BFuncs e' :=
  { symm := f.symm
    uv := f.uv.map fun g x => rotV V.R (g (V.b x))
    un := f.un.map fun g x => g (V.b x)
    flux := f.flux.map fun g x => g (V.b x)
    barocHead := f.barocHead.map fun g x => g (V.b x) }

/-- Boundary conditions by tag. -/
def View3.momBcs (bc : ℕ → Option (Mom3.BFuncs e)) (k : ℕ) : Option (Mom3.BFuncs e') := (bc k).map V.momFuncs

/-- Members of the terms. -/
def View3.momTerm (T : Mom3.Term e) : Mom3.Term e' :=
  ⟨T.hdg, T.vdg, T.nonlinear, T.lf, T.friction, T.sipg, V.sc T.sipgV, T.p, T.q, T.triangle, V.sc T.bath, V.sc T.elemH,
    T.blen, T.z, T.kappa, T.rho0, T.g⟩

/-- `1` for turns about the vertical, `-1` for mirrors. -/
def View3.det : ℝ := V.R 0 0 * V.R 1 1 - V.R 0 1 * V.R 1 0

/-- The fields.  The Coriolis parameter is that of the sense of rotation of the axes. -/
def View3.momFields (F : Mom3.Fields e) : Mom3.Fields e' :=
  ⟨F.uvDav.map V.vc, V.sc F.eta, F.w.map V.sc, F.wMesh.map V.sc, F.lfFactor, F.viscH.map V.sc, F.viscV.map V.sc,
    F.drag.map V.sc, F.roughness.map V.sc, F.linDrag.map V.sc,
    F.coriolis.map fun c => V.sc fun x => Jet.const V.det * c x, F.source.map V.vc, F.wind.map V.vc, F.intPg.map V.vc⟩

theorem momTotal_eq (F : Mom3.Fields e) (u : Vc e.m) : Mom3.total (V.momFields F) (V.vc u) = V.vc (Mom3.total F u) := by
  unfold Mom3.total View3.momFields
  cases F.uvDav with
  | none => rfl
  | some v => exact vc_add V.toView u v

theorem momVertVelo_eq (F : Mom3.Fields e) (w : Sc e.m) : Mom3.vertVelo (V.momFields F) (V.sc w) = V.sc (Mom3.vertVelo F w) := by
  unfold Mom3.vertVelo View3.momFields
  cases F.wMesh with
  | none => rfl
  | some u => exact sc_sub V.toView w u

/-- A sum over the horizontal components of products of two vectors. -/
theorem h2_mul_left (a : ℝ) (f : Fin 3 → ℝ) : Mom3.h2 (fun i => a * f i) = a * Mom3.h2 f := by
  unfold Mom3.h2
  ring

theorem h2_neg (f : Fin 3 → ℝ) : Mom3.h2 (fun i => -f i) = -Mom3.h2 f := by
  unfold Mom3.h2
  ring

theorem h2_congr {f g : Fin 3 → ℝ} (h : ∀ i, f i = g i) : Mom3.h2 f = Mom3.h2 g := by
  unfold Mom3.h2
  rw [h, h]

theorem hdd_congr {f g : Fin 3 → Fin 3 → ℝ} (h : ∀ i j, f i j = g i j) :
    (Mom3.h2 fun i => Mom3.h2 fun j => f i j) = Mom3.h2 fun i => Mom3.h2 fun j => g i j :=
  h2_congr fun i => h2_congr fun j => h i j

/-- A contraction of the horizontal components, factors in any form. -/
theorem View3.hddot_of {f g : Fin 3 → Fin 3 → ℝ} {a b A B : Fin 3 → Fin 3 → ℝ} (hf : ∀ i j, f i j = a i j * b i j)
    (hg : ∀ i j, g i j = A i j * B i j) (ha : ∀ i j, a i j = rotT V.R A i j) (hb : ∀ i j, b i j = rotT V.R B i j) :
    (Mom3.h2 fun i => Mom3.h2 fun j => f i j) = Mom3.h2 fun i => Mom3.h2 fun j => g i j := by
  rw [hdd_congr hf, hdd_congr hg]
  exact V.hddot_eq ha hb

theorem View3.hdot_of {f g a b u v : Fin 3 → ℝ} (hf : ∀ i, f i = a i * b i) (hg : ∀ i, g i = u i * v i)
    (ha : ∀ i, a i = rotV V.R u i) (hb : ∀ i, b i = rotV V.R v i) : Mom3.h2 f = Mom3.h2 g := by
  rw [h2_congr hf, h2_congr hg]
  exact V.hdot_eq ha hb

/-- The product of two vectors. -/
theorem outer_eq {a b u v : Fin 3 → ℝ} (ha : ∀ i, a i = rotV V.R u i) (hb : ∀ i, b i = rotV V.R v i) (i j : Fin 3) :
    a i * b j = rotT V.R (fun i j => u i * v j) i j := by
  rw [ha, hb, rotT_outer]

/-- C140: internal pressure gradient as force, forces from drag, friction at the bottom, sources and wind. -/
theorem C140_momentum3_forces (T : Mom3.Term e) (F : Mom3.Fields e) (sol old test : Vc e.m) :
    Mom3.pressureGradient (V.momFields F) (V.vc test) = Mom3.pressureGradient F test ∧
    Mom3.bottomFriction (V.momTerm T) (V.momFields F) (V.vc sol) (V.vc old) (V.vc test) = Mom3.bottomFriction T F sol old test ∧
    Mom3.linearDrag (V.momFields F) (V.vc sol) (V.vc test) = Mom3.linearDrag F sol test ∧
    Mom3.source (V.momTerm T) (V.momFields F) (V.vc test) = Mom3.source T F test := by
  refine ⟨?_, ?_, ?_, ?_⟩
  · unfold Mom3.pressureGradient View3.momFields
    cases F.intPg with
    | none => rfl
    | some pg => exact congrArg Neg.neg (V.dx_eq fun x => V.hdot_eq (fun i => rfl) fun i => rfl)
  · unfold Mom3.bottomFriction
    simp only [momTotal_eq]
    refine if_congr Iff.rfl (congrArg Neg.neg (V.dbottom_eq fun x => ?_)) rfl
    refine congrArg₂ (· * ·) (congrArg₂ (· * ·) ?_ (congrArg Real.sqrt ?_)) (V.hdot_eq (fun i => rfl) fun i => rfl)
    · unfold Mom3.dragAt View3.momFields
      cases F.drag <;> cases F.roughness <;> rfl
    · rw [sq, sq, sq, sq]
      exact V.hdot_eq (a := fun i => (V.vc (Mom3.total F old) i (.bnd x)).v)
        (b := fun i => (V.vc (Mom3.total F old) i (.bnd x)).v) (u := fun i => (Mom3.total F old i (.bnd (V.b x))).v)
        (v := fun i => (Mom3.total F old i (.bnd (V.b x))).v) (fun i => rfl) fun i => rfl
  · unfold Mom3.linearDrag
    simp only [momTotal_eq]
    unfold View3.momFields
    cases F.linDrag with
    | none => rfl
    | some c =>
      exact congrArg Neg.neg (V.dx_eq fun x => congrArg₂ (· * ·) rfl (dot_eq V.orth (fun i => rfl) fun i => rfl))
  · unfold Mom3.source Mom3.windStress View3.momFields
    refine congrArg₂ (· + ·) ?_ ?_
    · cases F.viscV <;> cases F.wind <;> try rfl
      exact V.dsurf_eq fun x => congrArg₂ (· / ·) (V.hdot_eq (fun i => rfl) fun i => rfl) rfl
    · cases F.source with
      | none => rfl
      | some r => exact V.dx_eq fun x => dot_eq V.orth (fun i => rfl) fun i => rfl

/-- C140: the Coriolis force, with the sign of the parameter after mirrors. -/
theorem C140_momentum3_coriolis (F : Mom3.Fields e) (sol test : Vc e.m) :
    Mom3.coriolis (V.momFields F) (V.vc sol) (V.vc test) = Mom3.coriolis F sol test := by
  unfold Mom3.coriolis View3.momFields
  cases F.coriolis with
  | none => rfl
  | some c =>
    refine congrArg Neg.neg (V.dx_eq fun x => ?_)
    have o0 := V.orth2 0 0
    have o1 := V.orth2 1 1
    have o2 := V.orth2 0 1
    rw [Fin.sum_univ_two] at o0 o1 o2
    simp only [if_true, zero_ne_one, if_false] at o0 o1 o2
    change V.R 0 0 * V.R 0 0 + V.R 1 0 * V.R 1 0 = 1 at o0
    change V.R 0 1 * V.R 0 1 + V.R 1 1 * V.R 1 1 = 1 at o1
    change V.R 0 0 * V.R 0 1 + V.R 1 0 * V.R 1 1 = 0 at o2
    obtain ⟨_, hb, hc, _, _⟩ := V.up
    have hd : V.det * V.det = 1 := by
      unfold View3.det
      linear_combination (V.R 0 1 * V.R 0 1 + V.R 1 1 * V.R 1 1) * o0 + o1 - (V.R 0 0 * V.R 0 1 + V.R 1 0 * V.R 1 1) * o2
    change (Jet.const V.det * c (.cell (V.c x))).v * (-rotV V.R (fun i => (sol i (.cell (V.c x))).v) 1 *
      rotV V.R (fun i => (test i (.cell (V.c x))).v) 0 + rotV V.R (fun i => (sol i (.cell (V.c x))).v) 0 *
      rotV V.R (fun i => (test i (.cell (V.c x))).v) 1) = _
    have hv : (Jet.const V.det * c (.cell (V.c x))).v = V.det * (c (.cell (V.c x))).v := rfl
    rw [hv]
    unfold rotV
    simp only [Fin.sum_univ_three, hb, hc, zero_mul, add_zero]
    unfold View3.det at *
    linear_combination ((c (.cell (V.c x))).v * (-(sol 1 (.cell (V.c x))).v * (test 0 (.cell (V.c x))).v +
      (sol 0 (.cell (V.c x))).v * (test 1 (.cell (V.c x))).v)) * hd

/-- An upwind value of the velocity times a vector that vanishes with the speed. -/
theorem uvUp_eq (T : Mom3.Term e) (u : Vc e.m) (un : ℝ) (x : e'.m.S) (h : T.z = 0 ∨ un ≠ 0) (i : Fin 3) :
    Mom3.uvUp (V.momTerm T) (V.vc u i) (V.sign x * un) x = rotV V.R (fun i => Mom3.uvUp T (u i) un (V.s x)) i := by
  unfold Mom3.uvUp Mom3.upwind View.sign
  rw [show (V.momTerm T).z = T.z from rfl]
  have hr : ∀ (a b : ℝ) (p q : Fin 3 → ℝ), rotV V.R (fun i => p i * a + q i * b) i = rotV V.R p i * a + rotV V.R q i * b := by
    intro a b p q
    rw [rotV_add (R := V.R) (fun i => p i * a) (fun i => q i * b) i, rotV_smul', rotV_smul']
  rw [hr]
  simp only [V.vc_v, V.pt_plus, V.pt_minus]
  cases V.flip x
  · simp only [Bool.false_eq_true, if_false, one_mul]
  · simp only [if_true, neg_one_mul]
    rw [sgn_neg T.z un h]
    ring

theorem extF_eq (T : Mom3.Term e) (F : Mom3.Fields e) (f : Mom3.BFuncs e) (k : ℕ) (u : Vc e.m) (x : e'.m.B) :
    Mom3.extF (V.momTerm T) (V.momFields F) (V.momFuncs f) k (V.vc u) x = rotV V.R (Mom3.extF T F f k u (V.b x)) := by
  have hn : ∀ a : ℝ, (fun i => rotV V.R (e.m.nb (V.b x)) i * a) = rotV V.R fun i => e.m.nb (V.b x) i * a := fun a =>
    funext fun i => (rotV_smul' _ _ _ _).symm
  unfold Mom3.extF Mom3.extUv View3.momFuncs
  simp only [V.nb, hn]
  cases f.symm <;> cases f.uv <;> cases f.un <;> cases f.flux <;>
    simp only [Option.map_none, Option.map_some, if_true, Bool.false_eq_true, if_false, Option.getD_none, Option.getD_some] <;> rfl

theorem sideTerm_eq (T : Mom3.Term e) (F : Mom3.Fields e) (bc : ℕ → Option (Mom3.BFuncs e)) (k : ℕ) (u test : Vc e.m)
    (x : e'.m.B) : Mom3.sideTerm (V.momTerm T) (V.momFields F) (V.momBcs bc k) k (V.vc u) (V.vc test) x =
      Mom3.sideTerm T F (bc k) k u test (V.b x) := by
  unfold Mom3.sideTerm View3.momBcs
  cases bc k with
  | none =>
    change Mom3.wall _ _ _ _ _ = Mom3.wall _ _ _ _ _
    unfold Mom3.wall
    have hn : ∑ i, (V.vc u i (.bnd x)).v * e'.m.nb x i = ∑ i, (u i (.bnd (V.b x))).v * e.m.nb (V.b x) i :=
      dot_eq V.orth (fun i => rfl) fun i => by rw [V.nb]
    simp only [hn]
    refine if_congr Iff.rfl (congrArg₂ (· * ·) rfl (V.hdot_eq (fun i => rfl) fun i => ?_)) rfl
    rw [rotV_sub, rotV_sub, rotV_smul, V.nb]
    rfl
  | some f =>
    change Mom3.openSide _ _ _ _ _ _ _ = Mom3.openSide _ _ _ _ _ _ _
    unfold Mom3.openSide
    simp only [extF_eq]
    generalize Mom3.extF T F f k u (V.b x) = r
    have ht : ∀ i, (V.vc test i (.bnd x)).v = rotV V.R (fun i => (test i (.bnd (V.b x))).v) i := fun i => rfl
    have hu : ∀ i, (V.vc u i (.bnd x)).v = rotV V.R (fun i => (u i (.bnd (V.b x))).v) i := fun i => rfl
    have hn : ∀ i, e'.m.nb x i = rotV V.R (e.m.nb (V.b x)) i := fun i => by rw [V.nb]
    have ha : ∀ i, 1 / 2 * ((V.vc u i (.bnd x)).v + rotV V.R r i) =
        rotV V.R (fun i => 1 / 2 * ((u i (.bnd (V.b x))).v + r i)) i := fun i => by rw [rotV_smul, rotV_add]; rfl
    have hs : 1 / 2 * ((V.vc u 0 (.bnd x)).v + rotV V.R r 0) * e'.m.nb x 0 +
        1 / 2 * ((V.vc u 1 (.bnd x)).v + rotV V.R r 1) * e'.m.nb x 1 =
        1 / 2 * ((u 0 (.bnd (V.b x))).v + r 0) * e.m.nb (V.b x) 0 +
        1 / 2 * ((u 1 (.bnd (V.b x))).v + r 1) * e.m.nb (V.b x) 1 := V.hdot_eq ha hn
    rw [hs]
    refine congrArg₂ (· + ·) ?_ (congrArg₂ (· * ·) rfl ?_)
    · exact V.hddot_of (fun i j => by ring) (fun i j => by ring) (outer_eq V hu hu) (outer_eq V ht hn)
    · refine V.hddot_of (fun i j => by ring) (fun i j => by ring) (outer_eq V (a := fun i =>
        rotV V.R r i - (V.vc u i (.bnd x)).v) (u := fun i => r i - (u i (.bnd (V.b x))).v) (fun i => ?_) ha)
        (outer_eq V ht hn)
      rw [rotV_sub]
      rfl

/-- C140: horizontal advection of momentum. -/
theorem C140_momentum3_horizontal (hf : e.m.Flat) (T : Mom3.Term e) (F : Mom3.Fields e) (bc : ℕ → Option (Mom3.BFuncs e))
    (sol old test : Vc e.m) :
    Mom3.hAdvection (V.momTerm T) (V.momFields F) (V.momBcs bc) (V.vc sol) (V.vc old) (V.vc test) =
      Mom3.hAdvection T F bc sol old test := by
  unfold Mom3.hAdvection
  simp only [momTotal_eq]
  generalize Mom3.total F sol = u
  generalize Mom3.total F old = v
  have h1 : ∀ x, (Mom3.h2 fun i => Mom3.h2 fun j => Mom3.uvUp (V.momTerm T) (V.vc u i) (Mom3.unAv (V.vc v) x) x *
      avg (V.vc v j) x * jumpN (V.vc test i) x j) = Mom3.h2 fun i => Mom3.h2 fun j =>
      Mom3.uvUp T (u i) (Mom3.unAv v (V.s x)) (V.s x) * avg (v j) (V.s x) * jumpN (test i) (V.s x) j := by
    intro x
    rw [V.unAv_eq hf]
    by_cases h0 : T.z = 0 ∨ Mom3.unAv v (V.s x) ≠ 0
    · exact V.hddot_eq (outer_eq V (uvUp_eq V T u _ x h0) fun j => V.avg_vc v j x) (V.jumpN_vc test x)
    · push Not at h0
      have hz : ∀ {e : Mesh3} (hf : e.m.Flat) (r : Fin 3 → ℝ) (v test : Vc e.m) (s : e.m.S), Mom3.unAv v s = 0 →
          (Mom3.h2 fun i => Mom3.h2 fun j => r i * avg (v j) s * jumpN (test i) s j) = 0 := by
        intro e hf r v test s h
        unfold Mom3.unAv Mom3.h2 at h
        unfold Mom3.h2 jumpN
        simp only [hf s _] at h ⊢
        linear_combination (-(r 0 * ((test 0 (.plus s)).v - (test 0 (.minus s)).v) +
          r 1 * ((test 1 (.plus s)).v - (test 1 (.minus s)).v))) * h
      rw [hz hf _ _ _ _ h0.2]
      have h' : Mom3.unAv (V.vc v) x = 0 := by rw [V.unAv_eq hf, h0.2, mul_zero]
      exact hz (V.flat hf) _ _ _ _ h'
  have h2 : ∀ x, 1 / 2 * |Mom3.unAv (V.vc v) x| * (V.momFields F).lfFactor *
      (Mom3.h2 fun i => jump (V.vc test i) x * jump (V.vc u i) x) =
      1 / 2 * |Mom3.unAv v (V.s x)| * F.lfFactor * Mom3.h2 fun i => jump (test i) (V.s x) * jump (u i) (V.s x) := by
    intro x
    rw [V.unAv_eq hf, abs_mul, show |V.sign x| = 1 by unfold View.sign; split <;> simp, one_mul]
    refine congrArg₂ (· * ·) rfl ?_
    have : ∀ i, jump (V.vc test i) x * jump (V.vc u i) x =
        rotV V.R (fun i => jump (test i) (V.s x)) i * rotV V.R (fun i => jump (u i) (V.s x)) i := by
      intro i
      rw [V.jump_vc, V.jump_vc]
      linear_combination (rotV V.R (fun i => jump (test i) (V.s x)) i * rotV V.R (fun i => jump (u i) (V.s x)) i) *
        V.sign_mul x
    exact V.hdot_of this (fun i => rfl) (fun i => rfl) fun i => rfl
  refine if_congr Iff.rfl (congrArg Neg.neg ?_) rfl
  refine congrArg₂ (· + ·) (congrArg₂ (· + ·) (V.dx_eq fun x => congrArg Neg.neg ?_) (if_congr Iff.rfl ?_ rfl))
    (V.dsurf_eq fun x => ?_)
  · exact V.hddot_of (a := fun i j => (V.vc test i (.cell x)).g j) (b := fun i j => (V.vc u i (.cell x)).v * (V.vc v j (.cell x)).v)
      (A := fun i j => (test i (.cell (V.c x))).g j) (B := fun i j => (u i (.cell (V.c x))).v * (v j (.cell (V.c x))).v)
      (fun i j => by ring) (fun i j => by ring) (fun i j => rfl) (outer_eq V (fun i => rfl) fun i => rfl)
  · refine congrArg₂ (· + ·) (congrArg₂ (· + ·) (congrArg₂ (· + ·) (V.dSv_eq h1) (V.dSh_eq h1)) ?_)
      (V.sideLoop_eq fun k x => sideTerm_eq V T F bc k u test x)
    exact if_congr Iff.rfl (congrArg₂ (· + ·) (V.dSv_eq h2) (V.dSh_eq h2)) rfl
  · exact V.hddot_of (a := fun i j => (V.vc v i (.bnd x)).v * (V.vc u j (.bnd x)).v)
      (b := fun i j => (V.vc test i (.bnd x)).v * e'.m.nb x j)
      (A := fun i j => (v i (.bnd (V.b x))).v * (u j (.bnd (V.b x))).v)
      (B := fun i j => (test i (.bnd (V.b x))).v * e.m.nb (V.b x) j) (fun i j => by ring) (fun i j => by ring)
      (outer_eq V (fun i => rfl) fun i => rfl) (outer_eq V (fun i => rfl) fun i => by rw [V.nb])

/-- C140: vertical advection of momentum. -/
theorem C140_momentum3_vertical (hf : e.m.Flat) (T : Mom3.Term e) (F : Mom3.Fields e) (sol test : Vc e.m) :
    Mom3.vAdvection (V.momTerm T) (V.momFields F) (V.vc sol) (V.vc test) = Mom3.vAdvection T F sol test := by
  unfold Mom3.vAdvection
  cases hu : F.w with
  | none => simp [View3.momFields, hu]
  | some w3 =>
    simp only [show (V.momFields F).w = some (V.sc w3) by simp [View3.momFields, hu], momVertVelo_eq, momTotal_eq]
    generalize Mom3.vertVelo F w3 = w
    generalize Mom3.total F sol = u
    refine if_congr Iff.rfl (congrArg Neg.neg ?_) rfl
    refine congrArg₂ (· + ·) (congrArg₂ (· + ·) (V.dx_eq fun x => congrArg Neg.neg ?_) (if_congr Iff.rfl
      (congrArg₂ (· + ·) (V.dSh_eq fun x => ?_) (if_congr Iff.rfl (V.dSh_eq fun x => ?_) rfl)) rfl)) (V.dsurf_eq fun x => ?_)
    · exact V.hdot_of (a := fun i => (V.vc test i (.cell x)).g 2)
        (b := fun i => (w (.cell (V.c x))).v * (V.vc u i (.cell x)).v) (u := fun i => (test i (.cell (V.c x))).g 2)
        (v := fun i => (w (.cell (V.c x))).v * (u i (.cell (V.c x))).v) (fun i => by rw [V.sc_v]; change _ * (w (.cell (V.c x))).v = _; ring)
        (fun i => by ring) (fun i => V.rotT_up (fun i j => (test i (.cell (V.c x))).g j) i)
        fun i => by rw [rotV_smul]; rfl
    · rw [V.wAv_eq hf, V.avg_sc]
      have ht : ∀ i, jumpN (V.vc test i) x 2 = rotV V.R (fun i => jumpN (test i) (V.s x) 2) i := fun i => by
        rw [V.jumpN_vc, V.rotT_up]
      by_cases h0 : T.z = 0 ∨ avg w (V.s x) * e.m.nm (V.s x) 2 ≠ 0
      · exact V.hdot_of (a := fun i => avg w (V.s x) * Mom3.uvUp (V.momTerm T) (V.vc u i)
          (V.sign x * (avg w (V.s x) * e.m.nm (V.s x) 2)) x) (b := fun i => jumpN (V.vc test i) x 2)
          (u := fun i => avg w (V.s x) * Mom3.uvUp T (u i) (avg w (V.s x) * e.m.nm (V.s x) 2) (V.s x))
          (v := fun i => jumpN (test i) (V.s x) 2) (fun i => by ring) (fun i => by ring)
          (fun i => by rw [rotV_smul, uvUp_eq V T u _ x h0]) ht
      · push Not at h0
        have hz : ∀ i, avg w (V.s x) * jumpN (test i) (V.s x) 2 = 0 := by
          intro i
          have := h0.2
          rw [hf _ 2] at this
          unfold jumpN
          rw [hf _ 2]
          linear_combination (-((test i (.plus (V.s x))).v - (test i (.minus (V.s x))).v)) * this
        have hz' : ∀ i, avg w (V.s x) * jumpN (V.vc test i) x 2 = 0 := by
          intro i
          rw [ht, ← rotV_smul]
          simp only [hz]
          exact rotV_zero V.R i
        simp only [mul_assoc, hz', hz, mul_zero]
    · rw [V.wAv_eq hf, abs_mul, show |V.sign x| = 1 by unfold View.sign; split <;> simp, one_mul]
      refine congrArg₂ (· * ·) rfl ?_
      have : ∀ i, jump (V.vc test i) x * jump (V.vc u i) x =
          rotV V.R (fun i => jump (test i) (V.s x)) i * rotV V.R (fun i => jump (u i) (V.s x)) i := by
        intro i
        rw [V.jump_vc, V.jump_vc]
        linear_combination (rotV V.R (fun i => jump (test i) (V.s x)) i * rotV V.R (fun i => jump (u i) (V.s x)) i) *
          V.sign_mul x
      exact V.hdot_of this (fun i => rfl) (fun i => rfl) fun i => rfl
    · rw [V.nb_up]
      exact V.hdot_of (a := fun i => (w (.bnd (V.b x))).v * e.m.nb (V.b x) 2 * (V.vc u i (.bnd x)).v)
        (b := fun i => (V.vc test i (.bnd x)).v)
        (u := fun i => (w (.bnd (V.b x))).v * e.m.nb (V.b x) 2 * (u i (.bnd (V.b x))).v)
        (v := fun i => (test i (.bnd (V.b x))).v) (fun i => by rw [V.sc_v]; change _ * (w (.bnd (V.b x))).v * _ * _ = _; ring)
        (fun i => by ring) (fun i => by rw [rotV_smul]; rfl) fun i => rfl

theorem avgStress_eq (mu : Sc e.m) (u : Vc e.m) (x : e'.m.S) (c i : Fin 3) :
    Mom3.avgStress (V.sc mu) (V.vc u c) x i = rotT V.R (fun c i => Mom3.avgStress mu (u c) (V.s x) i) c i := by
  unfold Mom3.avgStress
  simp only [rotT_smul, rotT_add, V.sc_v, V.vc_g, V.pt_plus, V.pt_minus]
  cases V.flip x
  · rfl
  · simp only [if_true]
    ring

theorem momSigmaH_eq (T : Mom3.Term e) (x : e'.m.S) : Mom3.sigmaH (V.momTerm T) x = Mom3.sigmaH T (V.s x) := by
  unfold Mom3.sigmaH View3.momTerm
  simp only [V.volP, V.volM, V.areaS]
  cases V.flip x
  · rfl
  · simp only [if_true]
    exact congrArg _ (ite_swap _ _)

theorem momSigmaV_eq (T : Mom3.Term e) (x : e'.m.S) : Mom3.sigmaV (V.momTerm T) x = Mom3.sigmaV T (V.s x) := by
  unfold Mom3.sigmaV View3.momTerm
  simp only [V.volP, V.volM, V.areaS, V.sc_v, V.pt_plus, V.pt_minus]
  cases V.flip x
  · rfl
  · simp only [if_true]
    exact ite_swap _ _

/-- C140: viscosity. -/
theorem C140_momentum3_viscosity (T : Mom3.Term e) (F : Mom3.Fields e) (sol test : Vc e.m) :
    Mom3.hViscosity (V.momTerm T) (V.momFields F) (V.vc sol) (V.vc test) = Mom3.hViscosity T F sol test ∧
    Mom3.vViscosity (V.momTerm T) (V.momFields F) (V.vc sol) (V.vc test) = Mom3.vViscosity T F sol test := by
  constructor
  · unfold Mom3.hViscosity
    cases hu : F.viscH with
    | none => simp [View3.momFields, hu]
    | some mu =>
      simp only [show (V.momFields F).viscH = some (V.sc mu) by simp [View3.momFields, hu], momTotal_eq]
      generalize Mom3.total F sol = u
      have hb : ∀ x : e'.m.B, -(Mom3.h2 fun i => Mom3.h2 fun j => (V.sc mu (.bnd x)).v * (V.vc u i (.bnd x)).g j *
          ((V.vc test i (.bnd x)).v * e'.m.nb x j)) = -(Mom3.h2 fun i => Mom3.h2 fun j => (mu (.bnd (V.b x))).v *
          (u i (.bnd (V.b x))).g j * ((test i (.bnd (V.b x))).v * e.m.nb (V.b x) j)) := by
        intro x
        exact congrArg Neg.neg (V.hddot_eq (fun i j => by rw [rotT_smul]; rfl)
          (outer_eq V (fun i => rfl) fun i => by rw [V.nb]))
      refine congrArg Neg.neg ?_
      refine congrArg₂ (· + ·) (congrArg₂ (· + ·) (congrArg₂ (· + ·) (V.dx_eq fun x => ?_) (if_congr Iff.rfl
        (V.dS_eq fun x => ?_) rfl)) (V.dsurf_eq hb)) (V.dbottom_eq hb)
      · exact V.hddot_eq (fun i j => rfl) fun i j => by rw [rotT_smul]; rfl
      · rw [momSigmaH_eq, V.avg_sc]
        simp only [Finset.sum_sub_distrib, ← Finset.mul_sum]
        refine congrArg₂ (· - ·) (congrArg₂ (· - ·) (congrArg₂ (· * ·) rfl ?_) ?_) ?_
        · exact V.cdot_eq (V.jumpN_vc test x) fun i j => by rw [rotT_smul, V.jumpN_vc]
        · exact V.cdot_eq (avgStress_eq V mu test x) (V.jumpN_vc u x)
        · exact V.cdot_eq (V.jumpN_vc test x) (avgStress_eq V mu u x)
  · unfold Mom3.vViscosity
    cases hu : F.viscV with
    | none => simp [View3.momFields, hu]
    | some mu =>
      simp only [show (V.momFields F).viscV = some (V.sc mu) by simp [View3.momFields, hu]]
      have hj : ∀ (u : Vc e.m) (x : e'.m.S) i, jumpN (V.vc u i) x 2 = rotV V.R (fun i => jumpN (u i) (V.s x) 2) i := by
        intro u x i
        rw [V.jumpN_vc, V.rotT_up]
      have ha : ∀ (u : Vc e.m) (x : e'.m.S) i, Mom3.avgStress (V.sc mu) (V.vc u i) x 2 =
          rotV V.R (fun i => Mom3.avgStress mu (u i) (V.s x) 2) i := by
        intro u x i
        rw [avgStress_eq, V.rotT_up]
      refine congrArg Neg.neg ?_
      refine congrArg₂ (· + ·) (V.dx_eq fun x => ?_) (if_congr Iff.rfl (V.dSh_eq fun x => ?_) rfl)
      · exact dot_eq V.orth (fun i => V.rotT_up (fun i j => (test i (.cell (V.c x))).g j) i)
          (v := fun i => (mu (.cell (V.c x))).v * (sol i (.cell (V.c x))).g 2)
          fun i => by
            rw [rotV_smul]
            exact congrArg₂ (· * ·) rfl (V.rotT_up (fun i j => (sol i (.cell (V.c x))).g j) i)
      · rw [momSigmaV_eq, V.avg_sc]
        simp only [Finset.sum_sub_distrib, ← Finset.mul_sum]
        refine congrArg₂ (· - ·) (congrArg₂ (· - ·) (congrArg₂ (· * ·) rfl ?_) ?_) ?_
        · exact dot_eq V.orth (hj test x) fun i => by rw [rotV_smul, hj]
        · exact dot_eq V.orth (ha test x) (hj sol x)
        · exact dot_eq V.orth (hj test x) (ha sol x)

/-- C140: the momentum equation of the 3D model. -/
theorem C140_momentum3 (hf : e.m.Flat) (T : Mom3.Term e) (F : Mom3.Fields e) (bc : ℕ → Option (Mom3.BFuncs e))
    (sol old test : Vc e.m) :
    Mom3.residual (V.momTerm T) (V.momFields F) (V.momBcs bc) (V.vc sol) (V.vc old) (V.vc test) =
      Mom3.residual T F bc sol old test := by
  unfold Mom3.residual
  have h := C140_momentum3_forces V T F sol old test
  rw [h.1, h.2.1, h.2.2.1, h.2.2.2, C140_momentum3_horizontal V hf, C140_momentum3_vertical V hf,
    (C140_momentum3_viscosity V T F sol test).1, (C140_momentum3_viscosity V T F sol test).2, C140_momentum3_coriolis]

/-- C140: the internal pressure gradient. -/
theorem C140_internal_pressure (T : Mom3.Term e) (dg : Bool) (scalar : Option ℝ) (bc : ℕ → Option (Mom3.BFuncs e))
    (r : Sc e.m) (test : Vc e.m) :
    Mom3.intPgForm (V.momTerm T) dg scalar (V.momBcs bc) (V.sc r) (V.vc test) = Mom3.intPgForm T dg scalar bc r test := by
  have hn : ∀ x : e'.m.B, (Mom3.h2 fun i => e'.m.nb x i * (V.vc test i (.bnd x)).v) =
      Mom3.h2 fun i => e.m.nb (V.b x) i * (test i (.bnd (V.b x))).v := fun x =>
    V.hdot_eq (fun i => by rw [V.nb]) fun i => rfl
  have hh : ∀ k x, Mom3.headSide (V.momBcs bc k) (V.sc r) x = Mom3.headSide (bc k) r (V.b x) := by
    intro k x
    unfold Mom3.headSide View3.momBcs
    cases bc k with
    | none => rfl
    | some f =>
      simp only [Option.map_some, View3.momFuncs]
      cases f.barocHead <;> rfl
  have hj : ∀ x, (Mom3.h2 fun i => jumpN (V.vc test i) x i) = Mom3.h2 fun i => jumpN (test i) (V.s x) i := fun x =>
    V.htrace_eq (V.jumpN_vc test x)
  unfold Mom3.intPgForm
  simp only [V.avg_sc, hj, hn, hh]
  have key : ∀ {f g : ℝ}, f = g → (match scalar with | some a => a * f | none => f) =
      match scalar with | some a => a * g | none => g := fun h => by rw [h]
  have hb : ∀ x : e'.m.B, (V.momTerm T).g * (V.sc r (.bnd x)).v *
      (Mom3.h2 fun i => e.m.nb (V.b x) i * (test i (.bnd (V.b x))).v) =
      T.g * (r (.bnd (V.b x))).v * Mom3.h2 fun i => e.m.nb (V.b x) i * (test i (.bnd (V.b x))).v := fun x => rfl
  have main : ∀ {f g : ℝ}, f = g → (match scalar with | some a => a * f | none => f) =
      (match scalar with | some a => a * g | none => g) := fun h => by rw [h]
  cases scalar <;>
  · simp only
    first
      | refine congrArg₂ (· * ·) rfl ?_
      | skip
    refine if_congr Iff.rfl ?_ ?_
    · refine congrArg₂ (· + ·) (congrArg₂ (· + ·) (congrArg₂ (· + ·) (V.dx_eq fun x => ?_) (congrArg₂ (· + ·)
        (V.dSv_eq fun x => rfl) (V.dSh_eq fun x => rfl))) (congrArg₂ (· + ·) (V.dbottom_eq hb) (V.dsurf_eq hb)))
        (V.sideLoop_eq fun k x => rfl)
      refine congrArg Neg.neg (congrArg₂ (· * ·) rfl ?_)
      exact V.htrace_eq fun i j => rfl
    · refine V.dx_eq fun x => congrArg₂ (· * ·) rfl ?_
      exact V.hdot_eq (fun i => rfl) fun i => rfl

end Verif.Frame
