import Verif.Frame.Props2
import Verif.Tracer3.Model
import Verif.Mom3.Model

/-!
C140 for tracers and the vertical velocity of the 3D model: descriptions with the same vertical axis.
-/

namespace Verif.Frame

open Verif.Dg Verif.Ext

/-- Another description of an extruded mesh, with the same vertical axis. -/
structure View3 (e e' : Mesh3) extends View e.m e'.m where
  hor : ∀ x, e'.hor x = e.hor (s x)
  face : ∀ x, e'.face x = e.face (b x)
  up : R 2 2 = 1 ∧ R 0 2 = 0 ∧ R 1 2 = 0 ∧ R 2 0 = 0 ∧ R 2 1 = 0

variable {e e' : Mesh3}

namespace View3

variable (V : View3 e e')

theorem dSh_eq {f : e'.m.S → ℝ} {g : e.m.S → ℝ} (h : ∀ x, f x = g (V.s x)) : e'.dSh f = e.dSh g :=
  V.dS_eq fun x => by rw [V.hor, h]

theorem dSv_eq {f : e'.m.S → ℝ} {g : e.m.S → ℝ} (h : ∀ x, f x = g (V.s x)) : e'.dSv f = e.dSv g :=
  V.dS_eq fun x => by rw [V.hor, h]

theorem dsurf_eq {f : e'.m.B → ℝ} {g : e.m.B → ℝ} (h : ∀ x, f x = g (V.b x)) : e'.dsurf f = e.dsurf g := by
  unfold Mesh3.dsurf
  rw [← V.b.sum_comp]
  exact Finset.sum_congr rfl fun x _ => by rw [h, V.wB, V.face]

theorem dbottom_eq {f : e'.m.B → ℝ} {g : e.m.B → ℝ} (h : ∀ x, f x = g (V.b x)) : e'.dbottom f = e.dbottom g := by
  unfold Mesh3.dbottom
  rw [← V.b.sum_comp]
  exact Finset.sum_congr rfl fun x _ => by rw [h, V.wB, V.face]

theorem sideLoop_eq {f : ℕ → e'.m.B → ℝ} {g : ℕ → e.m.B → ℝ} (h : ∀ k x, f k x = g k (V.b x)) :
    e'.sideLoop f = e.sideLoop g :=
  V.bndLoop_eq fun k x => by rw [V.face, h]

/-- The vertical component stays. -/
theorem rotV_up (u : Fin 3 → ℝ) : rotV V.R u 2 = u 2 := by
  obtain ⟨h1, _, _, h4, h5⟩ := V.up
  simp [rotV, Fin.sum_univ_three, h1, h4, h5]

theorem rotT_up (A : Fin 3 → Fin 3 → ℝ) (i : Fin 3) : rotT V.R A i 2 = rotV V.R (fun a => A a 2) i := by
  simp only [rotT, rotV_up]
  rfl

theorem rotT_up' (A : Fin 3 → Fin 3 → ℝ) (j : Fin 3) : rotT V.R A 2 j = rotV V.R (A 2) j := by
  rw [← rotT_swap V.R A, V.rotT_up]

/-- The turn in the horizontal plane. -/
def R2 (i j : Fin 2) : ℝ := V.R i.castSucc j.castSucc

theorem orth2 (i j : Fin 2) : ∑ k, V.R2 k i * V.R2 k j = if i = j then 1 else 0 := by
  have h := V.orth i.castSucc j.castSucc
  obtain ⟨_, _, _, h4, h5⟩ := V.up
  rw [Fin.sum_univ_three] at h
  rw [Fin.sum_univ_two]
  have h0 : V.R 2 i.castSucc = 0 := by fin_cases i <;> assumption
  rw [h0, zero_mul, add_zero] at h
  refine h.trans ?_
  fin_cases i <;> fin_cases j <;> simp

theorem rotV_two (u : Fin 3 → ℝ) (i : Fin 2) : rotV V.R u i.castSucc = rotV V.R2 (fun j => u j.castSucc) i := by
  obtain ⟨_, h2, h3, _, _⟩ := V.up
  have h0 : V.R i.castSucc 2 = 0 := by fin_cases i <;> assumption
  unfold rotV
  rw [Fin.sum_univ_three, Fin.sum_univ_two, h0, zero_mul, add_zero]
  rfl

theorem rotT_two (A : Fin 3 → Fin 3 → ℝ) (i j : Fin 2) :
    rotT V.R A i.castSucc j.castSucc = rotT V.R2 (fun a b => A a.castSucc b.castSucc) i j := by
  have h := fun a => V.rotV_two (A a) j
  unfold rotT
  simp only [h]
  exact V.rotV_two (fun a => rotV V.R2 (fun j => A a j.castSucc) j) i

theorem h2_sum (f : Fin 3 → ℝ) : Mom3.h2 f = ∑ i : Fin 2, f i.castSucc := by
  rw [Fin.sum_univ_two]
  rfl

/-- The inner product of the horizontal components. -/
theorem hdot_eq {a b u v : Fin 3 → ℝ} (ha : ∀ i, a i = rotV V.R u i) (hb : ∀ i, b i = rotV V.R v i) :
    Mom3.h2 (fun i => a i * b i) = Mom3.h2 fun i => u i * v i := by
  rw [h2_sum, h2_sum]
  exact dot_eq V.orth2 (fun i => by rw [ha, rotV_two]) fun i => by rw [hb, rotV_two]

/-- The contraction of the horizontal components. -/
theorem hddot_eq {a b A B : Fin 3 → Fin 3 → ℝ} (ha : ∀ i j, a i j = rotT V.R A i j) (hb : ∀ i j, b i j = rotT V.R B i j) :
    Mom3.h2 (fun i => Mom3.h2 fun j => a i j * b i j) = Mom3.h2 fun i => Mom3.h2 fun j => A i j * B i j := by
  simp only [h2_sum]
  exact ddot_eq V.orth2 (fun i j => by rw [ha, rotT_two]) fun i j => by rw [hb, rotT_two]

/-- The trace of the horizontal components. -/
theorem htrace_eq {a A : Fin 3 → Fin 3 → ℝ} (ha : ∀ i j, a i j = rotT V.R A i j) :
    Mom3.h2 (fun i => a i i) = Mom3.h2 fun i => A i i := by
  simp only [h2_sum, ha, rotT_two]
  exact trace_rot V.orth2 _

/-- The contraction over all components and the horizontal directions. -/
theorem cdot_eq {a b A B : Fin 3 → Fin 3 → ℝ} (ha : ∀ i j, a i j = rotT V.R A i j) (hb : ∀ i j, b i j = rotT V.R B i j) :
    ∑ c, Mom3.h2 (fun j => a c j * b c j) = ∑ c, Mom3.h2 fun j => A c j * B c j := by
  have hs : ∀ f : Fin 3 → ℝ, ∑ c, f c = Mom3.h2 f + f 2 := fun f => by rw [Fin.sum_univ_three]; rfl
  rw [hs, hs, V.hddot_eq ha hb]
  congr 1
  exact V.hdot_eq (fun j => by rw [ha, rotT_up']) fun j => by rw [hb, rotT_up']

theorem jumpN_up (f : Sc e.m) (x : e'.m.S) : jumpN (V.sc f) x 2 = jumpN f (V.s x) 2 := by
  rw [V.jumpN_sc, V.rotV_up]

theorem sc_up (f : Sc e.m) (x : Pt e'.m) : (V.sc f x).g 2 = (f (V.pt x)).g 2 := V.rotV_up _

theorem nb_up (x : e'.m.B) : e'.m.nb x 2 = e.m.nb (V.b x) 2 := by rw [V.nb, V.rotV_up]

theorem normalH_eq (u : Vc e.m) (x : e'.m.B) : normalH (V.vc u) x = normalH u (V.b x) :=
  V.hdot_eq (a := fun i => (V.vc u i (.bnd x)).v) (b := e'.m.nb x) (u := fun i => (u i (.bnd (V.b x))).v)
    (v := e.m.nb (V.b x)) (fun _ => rfl) fun i => by rw [V.nb]

theorem facetDiv_eq (u : Vc e.m) (t : Sc e.m) (x : e'.m.S) : facetDiv (V.vc u) (V.sc t) x = facetDiv u t (V.s x) := by
  have h : ∀ {e : Mesh3} (u : Vc e.m) (t : Sc e.m) s, facetDiv u t s = ∑ i, avg (u i) s * jumpN t s i :=
    fun u t s => by rw [Fin.sum_univ_three]; rfl
  rw [h, h]
  exact dot_eq V.orth (fun i => V.avg_vc u i x) fun i => V.jumpN_sc t x i

/-- The mean horizontal velocity along the normal of a facet. -/
theorem unAv_eq (hf : e.m.Flat) (u : Vc e.m) (x : e'.m.S) : Mom3.unAv (V.vc u) x = V.sign x * Mom3.unAv u (V.s x) := by
  have h : Mom3.unAv (V.vc u) x =
      Mom3.h2 fun j => avg (u j) (V.s x) * (if V.flip x then e.m.np (V.s x) else e.m.nm (V.s x)) j :=
    V.hdot_eq (fun i => V.avg_vc u i x) fun i => by rw [V.nm]
  rw [h]
  unfold Mom3.unAv Mom3.h2 View.sign
  cases V.flip x
  · simp
  · simp [hf _ _, add_comm]

/-- The vertical velocity along the normal of a facet. -/
theorem wAv_eq (hf : e.m.Flat) (w : Sc e.m) (x : e'.m.S) :
    avg (V.sc w) x * e'.m.nm x 2 = V.sign x * (avg w (V.s x) * e.m.nm (V.s x) 2) := by
  rw [V.avg_sc, V.nm, V.rotV_up]
  unfold View.sign
  cases V.flip x
  · simp
  · simp [hf _ _]

end View3

/-! ### The vertical velocity -/

variable (V : View3 e e')

/-- C140: the equation of the vertical velocity. -/
theorem C140_vertical_velocity (bfs : ℕ → Bool) (uv : Vc e.m) (w test : Sc e.m) :
    wLeft (V.sc w) (V.sc test) = wLeft w test ∧ wRight bfs (V.vc uv) (V.sc test) = wRight bfs uv test := by
  constructor
  · unfold wLeft
    refine congrArg₂ (· - ·) (congrArg₂ (· + ·) (V.dsurf_eq fun x => ?_) (V.dSh_eq fun x => ?_)) (V.dx_eq fun x => ?_)
    · rw [V.nb_up]; rfl
    · rw [V.avg_sc, V.jumpN_up]
    · rw [V.sc_up]; rfl
  · unfold wRight
    simp only
    refine congrArg₂ (· + ·) (congrArg₂ (· - ·) (congrArg₂ (· - ·) (congrArg₂ (· - ·) (V.dx_eq fun x => ?_)
      (V.dSv_eq fun x => V.facetDiv_eq ..)) (V.dSh_eq fun x => V.facetDiv_eq ..)) (V.dsurf_eq fun x => ?_))
      (V.sideLoop_eq fun k x => ?_)
    · exact dot_eq V.orth (fun i => rfl) fun i => rfl
    · have := V.normalAt_vc uv x
      unfold normalAt at this
      rw [Fin.sum_univ_three, Fin.sum_univ_three] at this
      rw [this]
      rfl
    · rw [V.normalH_eq]; rfl

/-! ### Tracers -/

open Verif.Tracer3

/-- Boundary condition of a tracer in the new description. -/
def View3.tracerFuncs (f : BFuncs e) : BFuncs e' :=
  { elev := f.elev.map fun g x => g (V.b x)
    value := f.value.map fun g x => g (V.b x)
    uv := f.uv.map fun g x => rotV V.R (g (V.b x))
    flux := f.flux.map fun g x => g (V.b x)
    un := f.un.map fun g x => g (V.b x) }

/-- Boundary conditions by tag. -/
def View3.tracerBcs (bc : ℕ → Option (BFuncs e)) (k : ℕ) : Option (BFuncs e') := (bc k).map V.tracerFuncs

/-- Members of the terms. -/
def View3.tracerTerm (T : Term e) : Term e' :=
  ⟨T.hdg, T.vdg, T.symm, T.lf, T.sipg, V.sc T.sipgV, T.p, T.q, T.triangle, T.z⟩

/-- The fields. -/
def View3.tracerFields (F : Fields e) : Fields e' :=
  ⟨F.uv.map V.vc, F.uvDav.map V.vc, V.sc F.elev, F.w.map V.sc, F.wMesh.map V.sc, F.lfFactor, F.diffH.map V.sc,
    F.diffV.map V.sc, F.source.map V.sc⟩

theorem vc_add {d : ℕ} {m m' : Mesh d} (V : View m m') (u v : Vc m) : (fun i => V.vc u i + V.vc v i) = V.vc fun i => u i + v i := by
  funext i x
  exact Jet.ext (rotV_add _ _ _ i).symm (funext fun j => (rotT_add _ _ _ i j).symm)

theorem sc_sub {d : ℕ} {m m' : Mesh d} (V : View m m') (f g : Sc m) : V.sc f - V.sc g = V.sc (f - g) :=
  funext fun x => (rot_sub _ (f (V.pt x)) (g (V.pt x))).symm

theorem totalUv_eq (F : Fields e) (uv : Vc e.m) : totalUv (V.tracerFields F) (V.vc uv) = V.vc (totalUv F uv) := by
  unfold totalUv View3.tracerFields
  cases F.uvDav with
  | none => rfl
  | some u => exact vc_add V.toView uv u

theorem vertVelo_eq (F : Fields e) (w : Sc e.m) : Tracer3.vertVelo (V.tracerFields F) (V.sc w) = V.sc (Tracer3.vertVelo F w) := by
  unfold Tracer3.vertVelo View3.tracerFields
  cases F.wMesh with
  | none => rfl
  | some u => exact sc_sub V.toView w u

/-- An upwind value times what vanishes with the velocity. -/
theorem cUp_eq (T : Term e) (c : Sc e.m) (un r : ℝ) (x : e'.m.S) (h : un = 0 → T.z = 0 ∨ r = 0) :
    cUp (V.tracerTerm T) (V.sc c) (V.sign x * un) x * r = cUp T c un (V.s x) * r := by
  unfold cUp Tracer3.upwind View.sign
  rw [show (V.tracerTerm T).z = T.z from rfl]
  simp only [V.sc_v, V.pt_plus, V.pt_minus]
  cases V.flip x
  · simp only [Bool.false_eq_true, if_false, one_mul]
  · simp only [if_true, neg_one_mul]
    by_cases h0 : T.z = 0 ∨ un ≠ 0
    · rw [sgn_neg T.z un h0]
      ring
    · push Not at h0
      rw [(h h0.2).resolve_left h0.1]
      ring

theorem sideFlux_eq (T : Term e) (uv : Vc e.m) (bc : ℕ → Option (BFuncs e)) (k : ℕ) (c test : Sc e.m) (x : e'.m.B) :
    Tracer3.sideTerm (V.tracerTerm T) (V.vc uv) (V.tracerBcs bc k) (V.sc c) (V.sc test) x =
      Tracer3.sideTerm T uv (bc k) c test (V.b x) := by
  unfold Tracer3.sideTerm View3.tracerBcs
  cases bc k with
  | none => rfl
  | some f =>
    refine congrArg₂ (· * ·) ?_ rfl
    have hn : ∀ a : ℝ, (fun i => a * rotV V.R (e.m.nb (V.b x)) i) = rotV V.R fun i => a * e.m.nb (V.b x) i := fun a =>
      funext fun i => (rotV_smul _ _ _ _).symm
    have hb : Tracer3.bndF (V.tracerFuncs f) x (c (.bnd (V.b x))).v (rotV V.R fun i => (uv i (.bnd (V.b x))).v) =
        ((Tracer3.bndF f (V.b x) (c (.bnd (V.b x))).v fun i => (uv i (.bnd (V.b x))).v).1,
          rotV V.R (Tracer3.bndF f (V.b x) (c (.bnd (V.b x))).v fun i => (uv i (.bnd (V.b x))).v).2) := by
      unfold Tracer3.bndF Tracer3.bndFunctions View3.tracerFuncs
      simp only [V.nb, hn]
      cases f.value <;> cases f.uv <;> cases f.flux <;> cases f.un <;> simp
    unfold sideFlux
    simp only
    rw [show (fun i => (V.vc uv i (.bnd x)).v) = rotV V.R fun i => (uv i (.bnd (V.b x))).v from rfl,
      show (V.sc c (.bnd x)).v = (c (.bnd (V.b x))).v from rfl, hb, V.normalH_eq]
    generalize Tracer3.bndF f (V.b x) (c (.bnd (V.b x))).v _ = r
    have hu : e'.m.nb x 0 * (1 / 2 * ((V.vc uv 0 (.bnd x)).v + rotV V.R r.2 0)) +
        e'.m.nb x 1 * (1 / 2 * ((V.vc uv 1 (.bnd x)).v + rotV V.R r.2 1)) =
        e.m.nb (V.b x) 0 * (1 / 2 * ((uv 0 (.bnd (V.b x))).v + r.2 0)) +
        e.m.nb (V.b x) 1 * (1 / 2 * ((uv 1 (.bnd (V.b x))).v + r.2 1)) :=
      V.hdot_eq (a := e'.m.nb x) (b := fun i => 1 / 2 * ((V.vc uv i (.bnd x)).v + rotV V.R r.2 i))
        (u := e.m.nb (V.b x)) (v := fun i => 1 / 2 * ((uv i (.bnd (V.b x))).v + r.2 i)) (fun i => by rw [V.nb])
        fun i => by rw [rotV_smul, rotV_add]; rfl
    rw [hu]
    rfl

/-- C140: horizontal advection of a tracer. -/
theorem C140_tracer3_horizontal (hf : e.m.Flat) (T : Term e) (F : Fields e) (bc : ℕ → Option (BFuncs e)) (c test : Sc e.m)
    (hz : T.z = 0 ∨ ∀ uv, F.uv = some uv → ∀ s, avg (totalUv F uv 2) s = 0) :
    Tracer3.hAdvection (V.tracerTerm T) (V.tracerFields F) (V.tracerBcs bc) (V.sc c) (V.sc test) =
      Tracer3.hAdvection T F bc c test := by
  unfold Tracer3.hAdvection
  cases hu : F.uv with
  | none => simp [View3.tracerFields, hu]
  | some uv3 =>
    simp only [show (V.tracerFields F).uv = some (V.vc uv3) by simp [View3.tracerFields, hu], totalUv_eq]
    have hz : T.z = 0 ∨ ∀ s, avg (totalUv F uv3 2) s = 0 := hz.imp_right fun h => h uv3 hu
    generalize totalUv F uv3 = uv at hz
    have h1 : ∀ x, cUp (V.tracerTerm T) (V.sc c) (Tracer3.unAv (V.vc uv) x) x * facetDiv (V.vc uv) (V.sc test) x =
        cUp T c (Tracer3.unAv uv (V.s x)) (V.s x) * facetDiv uv test (V.s x) := by
      intro x
      rw [V.facetDiv_eq, show Tracer3.unAv (V.vc uv) x = V.sign x * Tracer3.unAv uv (V.s x) from V.unAv_eq hf uv x]
      refine cUp_eq V T c _ _ x fun h0 => hz.imp_right fun hw => ?_
      unfold facetDiv jumpN
      unfold Tracer3.unAv at h0
      rw [hw, hf _ 0, hf _ 1]
      rw [hf _ 0, hf _ 1] at h0
      linear_combination (-((test (.plus (V.s x))).v - (test (.minus (V.s x))).v)) * h0
    have h2 : ∀ x, 1 / 2 * |Tracer3.unAv (V.vc uv) x| * (V.tracerFields F).lfFactor * (jump (V.sc test) x * jump (V.sc c) x) =
        1 / 2 * |Tracer3.unAv uv (V.s x)| * F.lfFactor * (jump test (V.s x) * jump c (V.s x)) := by
      intro x
      rw [show Tracer3.unAv (V.vc uv) x = V.sign x * Tracer3.unAv uv (V.s x) from V.unAv_eq hf uv x, abs_mul,
        show |V.sign x| = 1 by unfold View.sign; split <;> simp, V.jump_sc, V.jump_sc]
      change 1 / 2 * (1 * _) * F.lfFactor * _ = _
      linear_combination (1 / 2 * |Tracer3.unAv uv (V.s x)| * F.lfFactor * (jump test (V.s x) * jump c (V.s x))) *
        V.sign_mul x
    congr 1
    refine congrArg₂ (· + ·) (congrArg₂ (· + ·) (V.dx_eq fun x => congrArg Neg.neg (congrArg₂ (· * ·) rfl ?_)) ?_) ?_
    · exact dot_eq V.orth (fun i => rfl) fun i => rfl
    · refine if_congr Iff.rfl ?_ rfl
      refine congrArg₂ (· + ·) (congrArg₂ (· + ·) (congrArg₂ (· + ·) (V.dSv_eq h1) (V.dSh_eq h1)) ?_)
        (V.sideLoop_eq fun k x => sideFlux_eq V T uv bc k c test x)
      exact if_congr Iff.rfl (congrArg₂ (· + ·) (V.dSv_eq h2) (V.dSh_eq h2)) rfl
    · refine if_congr Iff.rfl (V.dsurf_eq fun x => ?_) rfl
      rw [V.normalH_eq]
      rfl

/-- C140: vertical advection of a tracer. -/
theorem C140_tracer3_vertical (hf : e.m.Flat) (T : Term e) (F : Fields e) (c test : Sc e.m) :
    Tracer3.vAdvection (V.tracerTerm T) (V.tracerFields F) (V.sc c) (V.sc test) = Tracer3.vAdvection T F c test := by
  unfold Tracer3.vAdvection
  cases hu : F.w with
  | none => simp [View3.tracerFields, hu]
  | some w3 =>
    simp only [show (V.tracerFields F).w = some (V.sc w3) by simp [View3.tracerFields, hu], vertVelo_eq]
    generalize Tracer3.vertVelo F w3 = w
    congr 1
    refine congrArg₂ (· + ·) (congrArg₂ (· + ·) (V.dx_eq fun x => ?_) ?_) (V.dsurf_eq fun x => ?_)
    · rw [V.sc_up]; rfl
    · refine if_congr Iff.rfl (congrArg₂ (· + ·) (V.dSh_eq fun x => ?_) (if_congr Iff.rfl (V.dSh_eq fun x => ?_) rfl)) rfl
      · rw [V.wAv_eq hf, V.jumpN_up, V.avg_sc, mul_assoc, mul_assoc]
        refine cUp_eq V T c _ _ x fun h0 => .inr ?_
        unfold jumpN
        rw [hf _ 2] at h0 ⊢
        linear_combination (-((test (.plus (V.s x))).v - (test (.minus (V.s x))).v)) * h0
      · rw [V.wAv_eq hf, abs_mul, show |V.sign x| = 1 by unfold View.sign; split <;> simp, V.jump_sc, V.jump_sc]
        change 1 / 2 * (1 * _) * F.lfFactor * _ = _
        linear_combination (1 / 2 * |avg w (V.s x) * e.m.nm (V.s x) 2| * F.lfFactor *
          (jump test (V.s x) * jump c (V.s x))) * V.sign_mul x
    · rw [V.nb_up]; rfl

/-- The mean of a coefficient times the gradient. -/
theorem avgGrad_eq (mu f : Sc e.m) (x : e'.m.S) (i : Fin 3) :
    1 / 2 * ((V.sc mu (.plus x)).v * (V.sc f (.plus x)).g i + (V.sc mu (.minus x)).v * (V.sc f (.minus x)).g i) =
      rotV V.R (fun i => 1 / 2 * ((mu (.plus (V.s x))).v * (f (.plus (V.s x))).g i +
        (mu (.minus (V.s x))).v * (f (.minus (V.s x))).g i)) i := by
  simp only [rotV_smul, rotV_add, V.sc_v, V.sc_g, V.pt_plus, V.pt_minus]
  cases V.flip x
  · rfl
  · simp only [if_true]
    ring

theorem ite_swap (a b : ℝ) : (if b > a then b else a) = if a > b then a else b := by
  split_ifs <;> linarith

theorem sigmaH_eq (T : Term e) (x : e'.m.S) : Tracer3.sigmaH (V.tracerTerm T) x = Tracer3.sigmaH T (V.s x) := by
  unfold Tracer3.sigmaH View3.tracerTerm
  simp only [V.volP, V.volM, V.areaS]
  cases V.flip x
  · rfl
  · simp only [if_true]
    exact ite_swap _ _

theorem sigmaV_eq (T : Term e) (x : e'.m.S) : Tracer3.sigmaV (V.tracerTerm T) x = Tracer3.sigmaV T (V.s x) := by
  unfold Tracer3.sigmaV View3.tracerTerm
  simp only [V.volP, V.volM, V.areaS, V.sc_v, V.pt_plus, V.pt_minus]
  cases V.flip x
  · rfl
  · simp only [if_true]
    exact ite_swap _ _

/-- C140: diffusion of a tracer. -/
theorem C140_tracer3_diffusion (T : Term e) (F : Fields e) (c test : Sc e.m) :
    Tracer3.hDiffusion (V.tracerTerm T) (V.tracerFields F) (V.sc c) (V.sc test) = Tracer3.hDiffusion T F c test ∧
    Tracer3.vDiffusion (V.tracerTerm T) (V.tracerFields F) (V.sc c) (V.sc test) = Tracer3.vDiffusion T F c test := by
  constructor
  · unfold Tracer3.hDiffusion
    cases hu : F.diffH with
    | none => simp [View3.tracerFields, hu]
    | some mu =>
      simp only [show (V.tracerFields F).diffH = some (V.sc mu) by simp [View3.tracerFields, hu]]
      have hb : ∀ x : e'.m.B, -(((V.sc mu (.bnd x)).v * (V.sc c (.bnd x)).g 0 * e'.m.nb x 0 +
          (V.sc mu (.bnd x)).v * (V.sc c (.bnd x)).g 1 * e'.m.nb x 1) * (V.sc test (.bnd x)).v) =
          -(((mu (.bnd (V.b x))).v * (c (.bnd (V.b x))).g 0 * e.m.nb (V.b x) 0 +
          (mu (.bnd (V.b x))).v * (c (.bnd (V.b x))).g 1 * e.m.nb (V.b x) 1) * (test (.bnd (V.b x))).v) := by
        intro x
        refine congrArg Neg.neg (congrArg₂ (· * ·) ?_ rfl)
        exact V.hdot_eq (a := fun i => (V.sc mu (.bnd x)).v * (V.sc c (.bnd x)).g i) (b := e'.m.nb x)
          (u := fun i => (mu (.bnd (V.b x))).v * (c (.bnd (V.b x))).g i) (v := e.m.nb (V.b x))
          (fun i => by rw [rotV_smul]; rfl) fun i => by rw [V.nb]
      congr 1
      refine congrArg₂ (· + ·) (congrArg₂ (· + ·) (congrArg₂ (· + ·) (V.dx_eq fun x => ?_)
        (if_congr Iff.rfl (V.dS_eq fun x => ?_) rfl)) (V.dbottom_eq hb)) (V.dsurf_eq hb)
      · exact V.hdot_eq (a := fun i => (V.sc test (.cell x)).g i)
          (b := fun i => (V.sc mu (.cell x)).v * (V.sc c (.cell x)).g i) (u := (test (.cell (V.c x))).g)
          (v := fun i => (mu (.cell (V.c x))).v * (c (.cell (V.c x))).g i) (fun i => rfl) fun i => by rw [rotV_smul]; rfl
      · rw [sigmaH_eq]
        refine congrArg₂ (· - ·) (congrArg₂ (· - ·) (congrArg₂ (· * ·) rfl ?_) ?_) ?_
        · exact V.hdot_eq (a := jumpN (V.sc test) x) (b := fun i => avg (V.sc mu) x * jumpN (V.sc c) x i)
            (u := jumpN test (V.s x)) (v := fun i => avg mu (V.s x) * jumpN c (V.s x) i) (fun i => V.jumpN_sc test x i)
            fun i => by rw [rotV_smul, V.avg_sc, V.jumpN_sc]
        · exact V.hdot_eq (avgGrad_eq V mu test x) (V.jumpN_sc c x)
        · exact V.hdot_eq (V.jumpN_sc test x) (avgGrad_eq V mu c x)
  · unfold Tracer3.vDiffusion
    cases hu : F.diffV with
    | none => simp [View3.tracerFields, hu]
    | some mu =>
      simp only [show (V.tracerFields F).diffV = some (V.sc mu) by simp [View3.tracerFields, hu]]
      congr 1
      refine congrArg₂ (· + ·) (V.dx_eq fun x => ?_) (if_congr Iff.rfl (V.dSh_eq fun x => ?_) rfl)
      · rw [V.sc_up, V.sc_up]; rfl
      · rw [sigmaV_eq, avgGrad_eq, avgGrad_eq, V.rotV_up, V.rotV_up, V.jumpN_up, V.jumpN_up, V.avg_sc]

/-- C140: the tracer equation of the 3D model. -/
theorem C140_tracer3 (hf : e.m.Flat) (T : Term e) (F : Fields e) (bc : ℕ → Option (BFuncs e)) (c test : Sc e.m)
    (hz : T.z = 0 ∨ ∀ uv, F.uv = some uv → ∀ s, avg (totalUv F uv 2) s = 0) :
    Tracer3.residual (V.tracerTerm T) (V.tracerFields F) (V.tracerBcs bc) (V.sc c) (V.sc test) =
      Tracer3.residual T F bc c test := by
  unfold Tracer3.residual
  rw [C140_tracer3_horizontal V hf T F bc c test hz, C140_tracer3_vertical V hf, (C140_tracer3_diffusion V T F c test).1,
    (C140_tracer3_diffusion V T F c test).2]
  congr 1
  unfold Tracer3.source View3.tracerFields
  cases F.source with
  | none => rfl
  | some r => exact V.dx_eq fun x => rfl

end Verif.Frame
