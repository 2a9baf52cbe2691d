import Verif.Solve.Props
import Verif.Contract.Props2
import Verif.Linear.Props4
import Verif.Ext.Lemmas
import Mathlib.LinearAlgebra.Prod

/-!
C145: the forms of the equations are linear in the test function.
-/

namespace Verif.Solve

open Finset Verif.Dg Verif.Ext Verif.Contract

/-! ### Depth-averaged tracers -/

section Tracer2

open Verif.Tracer2

variable {m : Mesh 2} (T : Tracer2.Term m) (F : Flow m) (bc : ℕ → Option (BFuncs m))

theorem advection_test (c : Sc m) : IsLin fun w : Sc m => advection T F bc c w := by
  unfold advection
  cases F.uv with
  | none => exact IsLin.zero
  | some u =>
    cases T.dg <;> cases T.lf <;>
      simp only [if_true, if_false, Bool.false_eq_true, bndLoop_eq, jump, Pi.mul_apply, Jet.mul_g] <;> lin

theorem consAdvection_test (c : Sc m) (b : Option (ℕ → Option (BFuncs m))) : IsLin fun w : Sc m => consAdvection T F b c w := by
  unfold consAdvection
  cases F.uv with
  | none => exact IsLin.zero
  | some u =>
    cases b <;> cases T.dg <;> cases T.lf <;>
      simp only [if_true, if_false, Bool.false_eq_true, bndLoop_eq, jump, jumpN] <;> lin

theorem diffusion_test (mu : Option (Sc m)) (c : Sc m) : IsLin fun w : Sc m => diffusion T F mu bc c w := by
  unfold diffusion
  cases mu with
  | none => exact IsLin.zero
  | some nu =>
    cases T.dg <;>
      simp only [if_true, if_false, Bool.false_eq_true, bndLoop_eq, jumpN, avgFlux] <;> lin

theorem source_test (s : Option (Sc m)) : IsLin fun w : Sc m => source s w := by
  unfold source
  cases s <;> simp only <;> lin

theorem consSource_test (e : Sc m) (s : Option (Sc m)) : IsLin fun w : Sc m => consSource T e s w := by
  unfold consSource
  cases s <;> simp only <;> lin

end Tracer2

theorem comp {V W : Type*} [AddCommGroup V] [Module ℝ V] [AddCommGroup W] [Module ℝ W] {f : W → ℝ} (hf : IsLin f) (g : V →ₗ[ℝ] W) :
    IsLin fun x => f (g x) := ⟨fun x y => by simp only [map_add, hf.1], fun a x => by simp only [map_smul, hf.2]⟩

theorem bilin_ip {d : ℕ} {m : Mesh d} : Bilin (ip (m := m)) := ⟨ip_left, ip_right⟩

/-- C145: the tracer equations of the 2D model, in both forms and with any linear change of the test function. -/
theorem C145_weak_tracer2 {m : Mesh 2} (T : Tracer2.Term m) (F : Tracer2.Flow m) (mu src : Option (Sc m)) (sup : Sc m →ₗ[ℝ] Sc m)
    (bc : ℕ → Option (Tracer2.BFuncs m)) :
    Weak (Linear.tracerEqn T F mu src sup bc) ∧ Weak (Linear.consTracerEqn T F mu src sup bc) :=
  ⟨⟨bilin_ip, bilin_ip, fun u _ => ((comp (advection_test T F bc u) sup).add (comp (diffusion_test T F bc mu u) sup)).add
      (comp (source_test src) sup)⟩,
    ⟨bilin_ip, bilin_ip, fun u _ => ((comp (consAdvection_test T F u (some bc)) sup).add (comp (diffusion_test T F bc mu u) sup)).add
      (comp (consSource_test T F.elev src) sup)⟩⟩

/-! ### Tracers of the 3D model -/

section Tracer3

open Verif.Tracer3

variable {e : Mesh3} (T : Tracer3.Term e) (F : Fields e) (bc : ℕ → Option (BFuncs e))

theorem sideTerm_test (uv : Vc e.m) (f : Option (BFuncs e)) (c : Sc e.m) (b : e.m.B) : IsLin fun w : Sc e.m => sideTerm T uv f c w b := by
  unfold sideTerm
  cases f <;> simp only <;> lin

theorem hAdvection_test (c : Sc e.m) : IsLin fun w : Sc e.m => hAdvection T F bc c w := by
  have hs := sideTerm_test T
  unfold hAdvection
  cases F.uv with
  | none => exact IsLin.zero
  | some u =>
    cases T.hdg <;> cases T.lf <;> cases T.symm <;>
      simp only [if_true, if_false, Bool.false_eq_true, sideLoop_eq, Mesh3.dSh, Mesh3.dSv, Mesh3.dsurf, jump, jumpN, facetDiv] <;>
      lin <;> exact hs _ _ _ _

theorem vAdvection_test (c : Sc e.m) : IsLin fun w : Sc e.m => vAdvection T F c w := by
  unfold vAdvection
  cases F.w with
  | none => exact IsLin.zero
  | some u =>
    cases T.vdg <;> cases T.lf <;>
      simp only [if_true, if_false, Bool.false_eq_true, Mesh3.dSh, Mesh3.dsurf, jump, jumpN] <;> lin

theorem hDiffusion_test (c : Sc e.m) : IsLin fun w : Sc e.m => hDiffusion T F c w := by
  unfold hDiffusion
  cases F.diffH with
  | none => exact IsLin.zero
  | some u =>
    cases T.hdg <;>
      simp only [if_true, if_false, Bool.false_eq_true, Mesh3.dbottom, Mesh3.dsurf, jumpN] <;> lin

theorem vDiffusion_test (c : Sc e.m) : IsLin fun w : Sc e.m => vDiffusion T F c w := by
  unfold vDiffusion
  cases F.diffV with
  | none => exact IsLin.zero
  | some u =>
    cases T.vdg <;>
      simp only [if_true, if_false, Bool.false_eq_true, Mesh3.dSh, jumpN] <;> lin

theorem source3_test : IsLin fun w : Sc e.m => Tracer3.source F w := by
  unfold Tracer3.source
  cases F.source <;> simp only <;> lin

/-- C145: the tracer equation of the 3D model. -/
theorem C145_weak_tracer3 : Weak (tracer3 T F bc) :=
  ⟨bilin_ip, bilin_ip, fun u _ => ((((hAdvection_test T F bc u).add (vAdvection_test T F u)).add (hDiffusion_test T F u)).add
    (vDiffusion_test T F u)).add (source3_test F)⟩

end Tracer3

/-! ### Shallow water equations -/

section Swe

open Verif.Swe

variable {m : Mesh 2} (T : Swe.Term m) (K : Coeffs m) (bc : ℕ → Option (Funcs m))

theorem pressure_test (x : State m) (e : Sc m) : IsLin fun w : Vc m => pressure T bc x.1 x.2 e w := by
  unfold pressure
  cases T.etaDg <;> simp only [if_true, if_false, Bool.false_eq_true, bndLoop_eq, jumpV, normalAt, div]
  all_goals lin

theorem huDiv_test (x v : State m) : IsLin fun p : Sc m => huDiv T bc x.1 x.2 v.1 v.2 p := by
  unfold huDiv
  cases T.uDg <;> cases T.etaDg <;> simp only [if_true, if_false, Bool.false_eq_true, bndLoop_eq, avg, jumpN, div]
  all_goals lin

theorem momBnd_test (x v : State m) (k : ℕ) (b : m.B) : IsLin fun w : Vc m => momBnd T bc x.1 x.2 v.1 v.2 w k b := by
  unfold momBnd
  cases openFuncs (bc k) <;> simp only <;> lin

theorem lfBnd_test (x v : State m) (k : ℕ) (b : m.B) : IsLin fun w : Vc m => lfBnd T bc x.1 v.1 w k b := by
  unfold lfBnd
  cases openFuncs (bc k) <;> simp only <;> lin

theorem swe_advection_test (x v : State m) : IsLin fun w : Vc m => advection T bc x.1 x.2 v.1 v.2 w := by
  have h1 := momBnd_test T bc x v
  have h2 := lfBnd_test T bc x v
  unfold advection
  cases T.nonlinear <;> cases T.uDg <;> cases T.lf <;>
    simp only [if_true, if_false, Bool.false_eq_true, bndLoop_eq, jump, jumpV, div, Pi.mul_apply, Jet.mul_g, Jet.mul_v] <;>
    lin <;> first | exact h1 _ _ | exact h2 _ _

theorem viscBnd_test (nu : Sc m) (x : State m) (k : ℕ) (b : m.B) : IsLin fun w : Vc m => viscBnd T bc nu x.1 x.2 w k b := by
  unfold viscBnd
  cases deltaUv T bc x.1 x.2 k b <;> simp only <;> lin

theorem viscosity_test (nu : Option (Sc m)) (x : State m) (e : Sc m) : IsLin fun w : Vc m => viscosity T bc nu x.1 x.2 e w := by
  have h1 := viscBnd_test T bc
  unfold viscosity
  cases nu with
  | none => exact IsLin.zero
  | some nu =>
    cases T.uDg <;> cases T.gradDepth <;>
      simp only [bndLoop_eq, tensorJump, if_true, if_false, Bool.false_eq_true] <;> lin <;> exact h1 _ _ _ _

theorem windStress_test (tau : Option (Vc m)) (e : Sc m) : IsLin fun w : Vc m => windStress T tau e w := by
  unfold windStress
  cases tau <;> simp only <;> lin

theorem atmPressure_test (p : Option (Sc m)) : IsLin fun w : Vc m => atmPressure T p w := by
  unfold atmPressure
  cases p <;> simp only <;> lin

theorem bottomDrag3d_test (cd : Option (Sc m)) (ub : Option (Vc m)) (e : Sc m) : IsLin fun w : Vc m => bottomDrag3d T cd ub e w := by
  unfold bottomDrag3d
  cases cd <;> cases ub <;> simp only <;> lin

theorem momentumSource_test (s : Option (Vc m)) : IsLin fun w : Vc m => momentumSource s w := by
  unfold momentumSource
  cases s <;> simp only <;> lin

theorem volumeSource_test (s : Option (Sc m)) : IsLin fun w : Sc m => volumeSource s w := by
  unfold volumeSource
  cases s <;> simp only <;> lin

theorem momentum_test (x v : State m) : IsLin fun w : Vc m => momentum T K bc x.1 x.2 v.1 v.2 w :=
  (((((((((((pressure_test T bc x v.2).add (swe_advection_test T bc x v)).add (viscosity_test T bc K.nu x v.2)).add
    (coriolis_right K.coriolis x.1)).add (windStress_test T K.wind v.2)).add (atmPressure_test T K.pressure)).add
    (quadraticDrag_right T K.cd x.1 v)).add (linearDrag_right K.linear x.1)).add (boundaryDrag_right bc x.1 v.1)).add
    (bottomDrag3d_test T K.bottomDrag K.uvBottom v.2)).add (momentumSource_test K.source)).add (turbineDrag_right T K.farms x.1 v)

theorem continuity_test (x v : State m) : IsLin fun p : Sc m => continuity T K bc x.1 x.2 v.1 v.2 p :=
  (huDiv_test T bc x v).add (volumeSource_test K.volume)

theorem bilin_ipState : Bilin (ipState (m := m)) := by
  refine ⟨fun y => ?_, fun x => ?_⟩ <;> unfold ipState ip <;> lin

theorem massEta_dry (hw : T.depth.wetdry = false) (a b : Sc m) : massEta T a b = ip a b := by
  unfold massEta ip
  simp [Depth.displacement, hw, Mesh.dx]

/-- C145: the shallow water equations without wetting and drying, and the 2D mode of the 3D model. -/
theorem C145_weak_swe (hw : T.depth.wetdry = false) : Weak (swe T K bc) ∧ Weak (modeSplit T K bc) := by
  have hm : (swe T K bc).mass = ipState := by
    funext u w
    simp only [swe, ipState, massEta_dry T hw]
  have f1 : ∀ {f : Vc m → ℝ}, IsLin f → IsLin fun w : State m => f w.1 := fun h => comp h (LinearMap.fst ℝ (Vc m) (Sc m))
  have f2 : ∀ {f : Sc m → ℝ}, IsLin f → IsLin fun w : State m => f w.2 := fun h => comp h (LinearMap.snd ℝ (Vc m) (Sc m))
  refine ⟨⟨hm ▸ bilin_ipState, bilin_ipState, fun u v => (f1 (momentum_test T K bc u v)).add (f2 (continuity_test T K bc u v))⟩,
    ⟨bilin_ipState, bilin_ipState, fun u v => ?_⟩⟩
  exact ((((f1 (pressure_test T bc u v.2)).add (f1 (coriolis_right K.coriolis u.1))).add (f1 (momentumSource_test K.source))).add
    (f1 (atmPressure_test T K.pressure))).add (f2 (continuity_test T K bc u v))

end Swe

end Verif.Solve
