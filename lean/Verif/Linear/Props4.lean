import Verif.Linear.Props
import Verif.Linear.Props2
import Verif.Linear.Props3
import Verif.Explicit.Model
import Mathlib.Tactic.Module

/-!
C143: superposition through the time integrators.
-/

namespace Verif.Linear

open Finset Verif.Dg Verif.Ext Verif.Contract Verif.Explicit

section Steps

variable {V : Type*} [AddCommGroup V] [Module ℝ V] {a b : ℝ}

/-- Three equations such that `a` times a residual of the first plus `b` times a residual of the second is the residual of
the third for the combined functions. -/
structure Super (a b : ℝ) (E E' F : Eqn V) : Prop where
  mass : ∀ u u' w, F.mass (a • u + b • u') w = a * E.mass u w + b * E'.mass u' w
  inner : ∀ u u' w, F.inner (a • u + b • u') w = a * E.inner u w + b * E'.inner u' w
  res : ∀ u u' v v' w, F.res (a • u + b • u') (a • v + b • v') w = a * E.res u v w + b * E'.res u' v' w

theorem comb_mem {H : Submodule ℝ V} {u u' : V} (h : u ∈ H) (h' : u' ∈ H) : a • u + b • u' ∈ H :=
  H.add_mem (H.smul_mem _ h) (H.smul_mem _ h')

theorem comb_ite (p : Prop) [Decidable p] (u u' v v' : V) :
    (if p then a • u + b • u' else a • v + b • v') = a • (if p then u else v) + b • if p then u' else v' := by
  split <;> rfl

theorem comb_sum (s : Finset ℕ) (c : ℕ → ℝ) (k k' : ℕ → V) :
    ∑ j ∈ s, c j • (a • k j + b • k' j) = a • ∑ j ∈ s, c j • k j + b • ∑ j ∈ s, c j • k' j := by
  rw [smul_sum, smul_sum, ← sum_add_distrib]
  refine sum_congr rfl fun j _ => ?_
  module

theorem comb_sumR (s : Finset ℕ) (f g h : ℕ → ℝ) (e : ∀ j, h j = a * f j + b * g j) :
    ∑ j ∈ s, h j = a * ∑ j ∈ s, f j + b * ∑ j ∈ s, g j := by
  rw [mul_sum, mul_sum, ← sum_add_distrib]
  exact sum_congr rfl fun j _ => e j

/-- C143: a step of `CrankNicolson`. -/
theorem C143_theta {E E' F Eo Eo' Fo : Eqn V} (S : Super a b E E' F) (So : Super a b Eo Eo' Fo) {dt theta : ℝ} {semi : Bool}
    {H : Submodule ℝ V} {old old' new new' : V} (h : ThetaStep E Eo dt theta semi H old new)
    (h' : ThetaStep E' Eo' dt theta semi H old' new') :
    ThetaStep F Fo dt theta semi H (a • old + b • old') (a • new + b • new') := by
  refine ⟨comb_mem h.1 h'.1, fun w hw => ?_⟩
  rw [comb_ite, S.mass, S.mass, S.res, So.res]
  linear_combination a * h.2 w hw + b * h'.2 w hw

theorem stageValue_eq (T : RK.Tableau) (dt : ℝ) (old old' : V) (k k' : ℕ → V) (i : ℕ) :
    stageValue T dt (a • old + b • old') (fun j => a • k j + b • k' j) i =
      a • stageValue T dt old k i + b • stageValue T dt old' k' i := by
  unfold stageValue
  rw [comb_sum]
  module

theorem stageLin_eq (T : RK.Tableau) (dt : ℝ) (semi : Bool) (old old' : V) (k k' : ℕ → V) (i : ℕ) :
    stageLin T dt semi (a • old + b • old') (fun j => a • k j + b • k' j) i =
      a • stageLin T dt semi old k i + b • stageLin T dt semi old' k' i := by
  unfold stageLin
  rw [stageValue_eq, comb_ite, comb_ite]

/-- C143: a step of `DIRKGeneric` with any table. -/
theorem C143_dirk {E E' F : ℕ → Eqn V} (S : ∀ i, Super a b (E i) (E' i) (F i)) {T : RK.Tableau} {dt : ℝ} {semi : Bool}
    {H : Submodule ℝ V} {old old' new new' : V} (h : TendencyStep E T dt semi H old new)
    (h' : TendencyStep E' T dt semi H old' new') : TendencyStep F T dt semi H (a • old + b • old') (a • new + b • new') := by
  obtain ⟨k, hk, rfl⟩ := h
  obtain ⟨k', hk', rfl⟩ := h'
  refine ⟨fun j => a • k j + b • k' j, fun i hi => ⟨comb_mem (hk i hi).1 (hk' i hi).1, fun w hw => ?_⟩, ?_⟩
  · rw [stageValue_eq, stageLin_eq, (S i).inner, (S i).res]
    linear_combination a * (hk i hi).2 w hw + b * (hk' i hi).2 w hw
  · rw [comb_sum]
    module

/-- C143: a step of `DIRKGenericUForm` with any table. -/
theorem C143_dirk_u {E E' F : ℕ → Eqn V} (S : ∀ i, Super a b (E i) (E' i) (F i)) {T : RK.Tableau} {dt : ℝ} {semi : Bool}
    {H : Submodule ℝ V} {old old' new new' : V} (h : UStep E T dt semi H old new)
    (h' : UStep E' T dt semi H old' new') : UStep F T dt semi H (a • old + b • old') (a • new + b • new') := by
  obtain ⟨u, k, hu, hk, rfl⟩ := h
  obtain ⟨u', k', hu', hk', rfl⟩ := h'
  have hs : ∀ i w, ∑ j ∈ range i, dt * T.a i j * (F i).inner (a • k j + b • k' j) w =
      a * ∑ j ∈ range i, dt * T.a i j * (E i).inner (k j) w + b * ∑ j ∈ range i, dt * T.a i j * (E' i).inner (k' j) w :=
    fun i w => comb_sumR _ _ _ _ fun j => by
      rw [(S i).inner]
      ring
  refine ⟨fun i => a • u i + b • u' i, fun i => a • k i + b • k' i, fun i hi => ⟨comb_mem (hu i hi).1 (hu' i hi).1, fun w hw => ?_⟩,
    fun i hi => ⟨comb_mem (hk i hi).1 (hk' i hi).1, fun w hw => ?_⟩, rfl⟩
  · rw [hs, comb_ite, (S i).mass, (S i).mass, (S i).res]
    linear_combination a * (hu i hi).2 w hw + b * (hu' i hi).2 w hw
  · rw [hs, (S i).mass, (S i).mass, (S i).inner]
    linear_combination a * (hk i hi).2 w hw + b * (hk' i hi).2 w hw

theorem tendency_eq {E E' F : Eqn V} (S : Super a b E E' F) {dt : ℝ} {H : Submodule ℝ V} {u u' k k' : V} (h : Tendency E dt H u k)
    (h' : Tendency E' dt H u' k') : Tendency F dt H (a • u + b • u') (a • k + b • k') := by
  refine ⟨comb_mem h.1 h'.1, fun w hw => ?_⟩
  rw [S.mass, S.res]
  linear_combination a * h.2 w hw + b * h'.2 w hw

/-- C143: a step of `ERKGeneric` with any table. -/
theorem C143_erk {E E' F : Eqn V} (S : Super a b E E' F) {T : RK.Tableau} {dt : ℝ} {H : Submodule ℝ V} {old old' new new' : V}
    (h : ButcherStep E T dt H old new) (h' : ButcherStep E' T dt H old' new') :
    ButcherStep F T dt H (a • old + b • old') (a • new + b • new') := by
  obtain ⟨k, hk, rfl⟩ := h
  obtain ⟨k', hk', rfl⟩ := h'
  refine ⟨fun j => a • k j + b • k' j, fun i hi => ?_, ?_⟩
  · have hs : stage T (a • old + b • old') (fun j => a • k j + b • k' j) i = a • stage T old k i + b • stage T old' k' i := by
      unfold stage
      rw [comb_sum]
      module
    rw [hs]
    exact tendency_eq S (hk i hi) (hk' i hi)
  · rw [comb_sum]
    module

/-- C143: a step of `ERKGenericShuOsher` with any coefficients. -/
theorem C143_shuosher {E E' F : Eqn V} (S : Super a b E E' F) {C : RK.ShuOsher} {n : ℕ} {dt : ℝ} {H : Submodule ℝ V}
    {old old' new new' : V} (h : ShuOsherStep E C n dt H old new) (h' : ShuOsherStep E' C n dt H old' new') :
    ShuOsherStep F C n dt H (a • old + b • old') (a • new + b • new') := by
  obtain ⟨s, k, rfl, hk, rfl⟩ := h
  obtain ⟨s', k', rfl, hk', rfl⟩ := h'
  refine ⟨fun i => a • s i + b • s' i, fun j => a • k j + b • k' j, rfl, fun i hi => ⟨tendency_eq S (hk i hi).1 (hk' i hi).1, ?_⟩, rfl⟩
  rw [comb_sum]
  dsimp only
  rw [(hk i hi).2, (hk' i hi).2]
  module

/-- C143: a step of `SSPRK33`. -/
theorem C143_ssprk33 {E E' F : Eqn V} (S : Super a b E E' F) {dt : ℝ} {H : Submodule ℝ V} {old old' new new' : V}
    (h : Ssprk33Step E dt H old new) (h' : Ssprk33Step E' dt H old' new') :
    Ssprk33Step F dt H (a • old + b • old') (a • new + b • new') := by
  obtain ⟨C, hC, h⟩ := h
  obtain ⟨C', hC', h'⟩ := h'
  obtain rfl : C = C' := Option.some.inj (hC.symm.trans hC')
  exact ⟨C, hC, C143_shuosher S h h'⟩

/-- C143: a step of `ForwardEuler`. -/
theorem C143_euler {E E' F : Eqn V} (S : Super a b E E' F) {dt : ℝ} {H : Submodule ℝ V} {old old' new new' : V}
    (h : EulerStep E dt H old new) (h' : EulerStep E' dt H old' new') :
    EulerStep F dt H (a • old + b • old') (a • new + b • new') := by
  refine ⟨comb_mem h.1 h'.1, fun w hw => ?_⟩
  rw [S.mass, S.mass, S.res]
  linear_combination a * h.2 w hw + b * h'.2 w hw

/-- C143: a step of `SSPRK22ALE` on a mesh that does not move. -/
theorem C143_ssprk22 {E E' F : Eqn V} (S : Super a b E E' F) {dt : ℝ} {H : Submodule ℝ V} {old old' new new' : V}
    (h : TwoStageStep E dt H old new) (h' : TwoStageStep E' dt H old' new') :
    TwoStageStep F dt H (a • old + b • old') (a • new + b • new') := by
  obtain ⟨hn, mid, hm, h1, h2⟩ := h
  obtain ⟨hn', mid', hm', h1', h2'⟩ := h'
  refine ⟨comb_mem hn hn', a • mid + b • mid', comb_mem hm hm', fun w hw => ?_, fun w hw => ?_⟩
  · rw [S.mass, S.inner, S.res]
    linear_combination a * h1 w hw + b * h1' w hw
  · rw [S.mass, S.inner, S.res, S.res]
    linear_combination a * h2 w hw + b * h2' w hw

/-- C143: whole runs.  `P`, `P'`, `Q` are the steps of the three runs (one of the relations above for each step); where the
solver has at most one solution, the third run is the combination of the first two at all times. -/
theorem C143_run {P P' Q : ℕ → V → V → Prop} (hPQ : ∀ n x x' y y', P n x y → P' n x' y' → Q n (a • x + b • x') (a • y + b • y'))
    (huniq : ∀ n x y z, Q n x y → Q n x z → y = z) (u u' v : ℕ → V) (hu : ∀ n, P n (u n) (u (n + 1)))
    (hu' : ∀ n, P' n (u' n) (u' (n + 1))) (hv : ∀ n, Q n (v n) (v (n + 1))) (h0 : v 0 = a • u 0 + b • u' 0) (n : ℕ) :
    v n = a • u n + b • u' n := by
  induction n with
  | zero => exact h0
  | succ n ih =>
    refine huniq n (v n) _ _ (hv n) ?_
    rw [ih]
    exact hPQ n _ _ _ _ (hu n) (hu' n)

end Steps

/-! ### The equations -/

variable {a b : ℝ}

theorem ip_eq {d : ℕ} {m : Mesh d} (u v w : Sc m) : ip (a • u + b • v) w = a * ip u w + b * ip v w :=
  dx_eq fun x => right_eq _ (sc_v u v _)

theorem ipState_eq {m : Mesh 2} (u v w : State m) : ipState (a • u + b • v) w = a * ipState u w + b * ipState v w :=
  add_eq (sum_eq fun i => ip_eq (u.1 i) (v.1 i) (w.1 i)) (ip_eq u.2 v.2 w.2)

/-- `TracerEquation2D`, tracer_eq_2d.py:462-483: the form that is not conservative.  The terms are tested with `sup w`: the test
function itself, or the one of `apply_supg`, which depends on the flow and not on the tracer. -/
noncomputable def tracerEqn {m : Mesh 2} (T : Tracer2.Term m) (F : Tracer2.Flow m) (mu src : Option (Sc m))
    (sup : Sc m → Sc m) (bc : ℕ → Option (Tracer2.BFuncs m)) : Eqn (Sc m) where
  mass := ip
  inner := ip
  res c _ w := Tracer2.advection T F bc c (sup w) + Tracer2.diffusion T F mu bc c (sup w) + Tracer2.source src (sup w)

/-- The same in conservative form, tracer_eq_2d.py:485-488. -/
noncomputable def consTracerEqn {m : Mesh 2} (T : Tracer2.Term m) (F : Tracer2.Flow m) (mu src : Option (Sc m))
    (sup : Sc m → Sc m) (bc : ℕ → Option (Tracer2.BFuncs m)) : Eqn (Sc m) where
  mass := ip
  inner := ip
  res c _ w := Tracer2.consAdvection T F (some bc) c (sup w) + Tracer2.diffusion T F mu bc c (sup w) +
    Tracer2.consSource T F.elev src (sup w)

/-- C143: tracers of the 2D model, in both forms. -/
theorem C143_tracer2 {m : Mesh 2} (T : Tracer2.Term m) (F : Tracer2.Flow m) (mu s s' r : Option (Sc m)) (sup : Sc m → Sc m)
    (hr : scOr r = sc a b (scOr s) (scOr s')) {f g h : ℕ → Option (Tracer2.BFuncs m)} (H : Bnds2 a b f g h) :
    Super a b (tracerEqn T F mu s sup f) (tracerEqn T F mu s' sup g) (tracerEqn T F mu r sup h) ∧
    Super a b (consTracerEqn T F mu s sup f) (consTracerEqn T F mu s' sup g) (consTracerEqn T F mu r sup h) := by
  refine ⟨⟨ip_eq, ip_eq, fun c c' _ _ w => ?_⟩, ⟨ip_eq, ip_eq, fun c c' _ _ w => ?_⟩⟩
  · exact add_eq (add_eq (C143_advection T F H c c' (sup w)) (C143_diffusion T F mu H c c' (sup w))) (C143_source T F.elev s s' r hr (sup w)).1
  · exact add_eq (add_eq (C143_conservative T F H c c' (sup w)) (C143_diffusion T F mu H c c' (sup w))) (C143_source T F.elev s s' r hr (sup w)).2

/-- C143: tracers of the 3D model. -/
theorem C143_tracer3_eqn {e : Mesh3} (T : Tracer3.Term e) (F : Tracer3.Fields e) (s s' r : Option (Sc e.m))
    (hr : scOr r = sc a b (scOr s) (scOr s')) {f g h : ℕ → Option (Tracer3.BFuncs e)} (H : Bnds3 a b f g h) :
    Super a b (tracer3 T { F with source := s } f) (tracer3 T { F with source := s' } g) (tracer3 T { F with source := r } h) :=
  ⟨ip_eq, ip_eq, fun c c' _ _ w => C143_tracer3 T F s s' r hr H c c' w⟩

/-- C143: the linear shallow water equations. -/
theorem C143_swe {m : Mesh 2} {T : Swe.Term m} (L : Lin T) {A B C : Swe.Coeffs m} (K : Coeffs3 a b A B C)
    {f g h : ℕ → Option (Swe.Funcs m)} (H : Dicts3 a b f g h) : Super a b (swe T A f) (swe T B g) (swe T C h) where
  mass u u' w := add_eq (sum_eq fun i => ip_eq (u.1 i) (u'.1 i) (w.1 i)) (C143_mass L u.2 u'.2 w.2)
  inner := ipState_eq
  res u u' v v' w := add_eq (C143_momentum L H u.1 u'.1 v.1 v'.1 _ u.2 u'.2 v.2 v'.2 _ K w.1)
    (C143_continuity L H u.1 u'.1 v.1 v'.1 _ u.2 u'.2 v.2 v'.2 _ K w.2)

/-- C143: the 2D mode of the 3D model with the linear equations. -/
theorem C143_mode {m : Mesh 2} {T : Swe.Term m} (L : Lin T) {A B C : Swe.Coeffs m} (K : Coeffs3 a b A B C)
    {f g h : ℕ → Option (Swe.Funcs m)} (H : Dicts3 a b f g h) :
    Super a b (modeSplit T A f) (modeSplit T B g) (modeSplit T C h) where
  mass := ipState_eq
  inner := ipState_eq
  res u u' v v' w := by
    refine add_eq (add_eq (add_eq (add_eq (pressure_eq L H u.1 u'.1 u.2 u'.2 v.2 v'.2 _ w.1) ?_) ?_) ?_)
      (C143_continuity L H u.1 u'.1 v.1 v'.1 _ u.2 u'.2 v.2 v'.2 _ K w.2)
    · rw [K.coriolis₁, K.coriolis₂]
      exact coriolis_eq u.1 u'.1 _ w.1
    · rw [momentumSource_or, momentumSource_or, momentumSource_or, K.source]
      exact dx_eq fun x => sum_eq fun i => right_eq _ (vc_v _ _ _ _)
    · rw [atmPressure_or, atmPressure_or, atmPressure_or, K.pressure]
      exact neg_eq (dx_eq fun x => div_eq' _ (sum_eq fun i => right_eq _ (sc_g _ _ _ _)))

end Verif.Linear
