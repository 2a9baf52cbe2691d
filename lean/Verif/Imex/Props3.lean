import Verif.Imex.Props2
import Verif.Converge.Props5
import Verif.Converge.Props7

/-!
C130 for linear equations, waves, and quadratic drag.
-/

namespace Verif.Imex

open Finset Verif.Contract Verif.Explicit Verif.Converge Verif.Dg RK

universe u

variable {V : Type u} [AddCommGroup V] [Module ℝ V]

/-- The equation with the terms of both. -/
def both (EI EE : Eqn V) : Eqn V where
  mass := EI.mass
  inner := EI.inner
  res u v w := EI.res u v w + EE.res u v w

section Linear

variable {EI EE : Eqn V} {H : Submodule ℝ V} {W : V → V} (hI : HasEnergy EI H W) (hE : HasEnergy EE H W)
  (hm : ∀ x y, EE.mass x y = EI.mass x y) (hlI : LinearEqn EI W) (hlE : LinearEqn EE W)
  (hfI : ∀ u v v' w, EI.res u v w = EI.res u v' w) (hfE : ∀ u v v' w, EE.res u v w = EE.res u v' w)
  (hdef : ∀ x ∈ H, EI.mass x (W x) = 0 → x = 0) (hfin : FiniteDimensional ℝ H)

include hI hdef hfin in
/-- Linear residuals along a smooth function are smooth. -/
theorem smooth_res {E : Eqn V} (hl : LinearEqn E W) {U : ℝ → V} (hU : ∀ t, U t ∈ H) {p : ℕ}
    (hs : ∀ y ∈ H, ContDiff ℝ p fun t => massForm EI W (U t) y) (y : V) : ContDiff ℝ p fun t => E.res (U t) (U t) (W y) := by
  obtain ⟨F, i1, i2, i3, g, hg, hsur, hin⟩ := exists_inner (e := massForm EI W) hI.energy hdef hfin
  obtain ⟨z, hz⟩ := riesz (F := F)
    { toFun := fun x => E.res (g x) (g x) (W y)
      map_add' := fun x x' => by rw [map_add]; exact (hl.1 _).1 _ _
      map_smul' := fun a x => by rw [map_smul]; exact (hl.1 _).2 _ _ }
  have hz' : ∀ x, Inner.inner ℝ z x = E.res (g x) (g x) (W y) := hz
  have : (fun t => E.res (U t) (U t) (W y)) = fun t => massForm EI W (U t) (g z) := funext fun t => by
    obtain ⟨x, hx⟩ := hsur (U t) (hU t)
    rw [← hx, ← hz', real_inner_comm, hin]
  rw [this]
  exact hs _ (hg z)

include hI hE hm hlI hlE hfI hfE hdef hfin in
/-- C130: for linear equations with fields and boundary conditions that do not change, there is a solution in continuous time from every initial
function, and the implicit-explicit methods converge to it with their order. -/
theorem C130_linear (u0 : V) (h0 : u0 ∈ H) (tEnd : ℝ) : ∃ U : ℝ → V, U 0 = u0 ∧ (∀ t, U t ∈ H) ∧
    (∀ t, 0 ≤ t → t ≤ tEnd → ∀ y ∈ H,
      deriv (fun s => EI.mass (U s) (W y)) t = EI.res (U t) (U t) (W y) + EE.res (U t) (U t) (W y)) ∧
    Converges (massForm EI W) (ImexAt (fun _ _ => EI) (fun _ _ => EE) forwardEuler backwardEuler H Set.univ) tEnd U (fun dt => dt) ∧
    ∀ TE TI, (TE, TI) ∈ [(erkLPUM2, dirkLPUM2), (erkLSPUM2, dirkLSPUM2), (erkMidpoint, esdirkMidpoint)] →
      Converges (massForm EI W) (ImexAt (fun _ _ => EI) (fun _ _ => EE) TE TI H Set.univ) tEnd U fun dt => dt ^ 2 := by
  have hb : HasEnergy (both EI EE) H W := ⟨hI.maps, hI.energy, hI.inner⟩
  have hlb : LinearEqn (both EI EE) W := ⟨fun y => (hlI.1 y).add (hlE.1 y), fun x => (hlI.2 x).add (hlE.2 x)⟩
  obtain ⟨U, L, hU0, hU, hD⟩ := linear_solution hb hlb hdef hfin u0 h0 tEnd
  obtain ⟨_, LI, -, hUI, hDI⟩ := linear_solution hI hlI hdef hfin u0 h0 tEnd
  have hdE : ∀ x ∈ H, EE.mass x (W x) = 0 → x = 0 := fun x hx h => hdef x hx (by rw [← hm]; exact h)
  obtain ⟨_, LE, -, hUE, hDE⟩ := linear_solution hE hlE hdE hfin u0 h0 tEnd
  have hmass : massForm EE W = massForm EI W := funext fun x => funext fun y => hm _ _
  rw [hmass] at hDE hUE
  have nI := (hUI 0).nonneg
  have nE := (hUE 0).nonneg
  have hs : ∀ p : ℕ, ∀ y ∈ H, ContDiff ℝ p fun t => massForm EI W (U t) y := fun p => (hU p).smooth
  have n : ∀ x, 0 ≤ size (massForm EI W) x := fun x => Real.sqrt_nonneg (massForm EI W x x)
  have bI : ∀ {x}, x ∈ H → ∀ {y}, y ∈ H → 0 ≤ tEnd →
      |EI.res x x (W y)| ≤ (LI + LE) * size (massForm EI W) x * size (massForm EI W) y := fun {x} hx {y} hy ht => by
    have := hDI.bound 0 le_rfl ht _ hx _ hy
    have p : 0 ≤ LE * size (massForm EI W) x * size (massForm EI W) y := mul_nonneg (mul_nonneg nE (n _)) (n _)
    linarith
  have bE : ∀ {x}, x ∈ H → ∀ {y}, y ∈ H → 0 ≤ tEnd →
      |EE.res x x (W y)| ≤ (LI + LE) * size (massForm EI W) x * size (massForm EI W) y := fun {x} hx {y} hy ht => by
    have := hDE.bound 0 le_rfl ht _ hx _ hy
    have p : 0 ≤ LI * size (massForm EI W) x * size (massForm EI W) y := mul_nonneg (mul_nonneg nI (n _)) (n _)
    linarith
  have hsol : ∀ p, SplitSolution (fun _ _ => EI) (fun _ _ => EE) H W (massForm EI W) Set.univ p (LI + LE) tEnd U := fun p => by
    refine ⟨(hU 0).mem, fun y hy => by exact_mod_cast hs 1 y hy, fun y _ => smooth_res hI hdef hfin hlI (hU 0).mem (hs p) y,
      fun y _ => smooth_res hI hdef hfin hlE (hU 0).mem (hs p) y, (hU 0).eqn, add_nonneg nI nE,
      fun t h0 ht x hx _ v _ _ y hy => ?_, fun t h0 ht x hx _ y hy => ?_⟩
    · rw [hfI x v x, show EI.res x x (W y) - EI.res (U t) (U t) (W y) = EI.res (x - U t) (x - U t) (W y) from
        ((hlI.1 y).map_sub _ _).symm]
      refine (bI (H.sub_mem hx ((hU 0).mem t)) hy (h0.trans ht)).trans ?_
      refine mul_le_mul_of_nonneg_right (mul_le_mul_of_nonneg_left ?_ (add_nonneg nI nE)) (n _)
      linarith [n (v - U t)]
    · rw [show EE.res x x (W y) - EE.res (U t) (U t) (W y) = EE.res (x - U t) (x - U t) (W y) from
        ((hlE.1 y).map_sub _ _).symm]
      exact bE (H.sub_mem hx ((hU 0).mem t)) hy (h0.trans ht)
  have hder : ∀ {E : Eqn V}, LinearEqn E W → (∀ {x}, x ∈ H → ∀ {y}, y ∈ H → 0 ≤ tEnd → |E.res x x (W y)| ≤
      (LI + LE) * size (massForm EI W) x * size (massForm EI W) y) →
      Derivative (fun _ _ => E) H W (massForm EI W) Set.univ (LI + LE) 0 tEnd U fun _ x y => E.res x x (W y) := fun {E} hl hb =>
    ⟨fun _ => hl, le_rfl, fun t h0 ht x hx y hy => hb hx hy (h0.trans ht), fun t s _ _ _ x _ _ y _ => by
      rw [show E.res x x (W y) - E.res (U s) (U s) (W y) = E.res (x - U s) (x - U s) (W y) from ((hl.1 y).map_sub _ _).symm]
      simp⟩
  have sI := linear_system hI hlI hfI hdef hfin
  have sE := linear_system hE hlE hfE hdE hfin
  rw [hmass] at sE
  obtain ⟨n1, n2, -⟩ := C129_nodes
  refine ⟨U, hU0, (hU 0).mem, (hU 0).eqn, ?_, fun TE TI h => ?_⟩
  · refine C130_weak_first sI sE (hsol 1) rfl C21_backwardEuler.1 (fun i hi j hj _ => ?_) n1 n2 C21_backwardEuler.2.1 C21_forwardEuler.2.1
    obtain rfl : i = 0 := by change i < 1 at hi; omega
    obtain rfl : j = 0 := by change j < 1 at hj; omega
    norm_num [forwardEuler, RK.mk, vec]
  · have low : ∀ {T : Tableau}, T.n = 3 → T.a 0 0 = 0 → T.a 0 1 = 0 → T.a 0 2 = 0 → T.a 1 1 = 0 → T.a 1 2 = 0 → T.a 2 2 = 0 →
        ∀ i < T.n, ∀ j < T.n, i ≤ j → T.a i j = 0 := fun {T} hn a b c d e f i hi j hj hij => by
      rw [hn] at hi hj
      interval_cases i <;> interval_cases j <;> assumption
    simp only [List.mem_cons, List.not_mem_nil, or_false, Prod.mk.injEq] at h
    rcases h with ⟨rfl, rfl⟩ | ⟨rfl, rfl⟩ | ⟨rfl, rfl⟩
    · refine C130_weak_second sI sE (hsol 2) (fun _ _ => hfI) (hder hlI bI) (hder hlE bE) paired_LPUM2 C21_dirkLPUM2.1
        (low rfl ?_ ?_ ?_ ?_ ?_ ?_) <;> norm_num [erkLPUM2, RK.mk, vec]
    · refine C130_weak_second sI sE (hsol 2) (fun _ _ => hfI) (hder hlI bI) (hder hlE bE) paired_LSPUM2 C21_dirkLSPUM2.1
        (low rfl ?_ ?_ ?_ ?_ ?_ ?_) <;> norm_num [erkLSPUM2, RK.mk, vec]
    · refine C130_weak_second sI sE (hsol 2) (fun _ _ => hfI) (hder hlI bI) (hder hlE bE) paired_midpoint C21_esdirkMidpoint.1
        (fun i hi j hj hij => ?_)
      change i < 2 at hi
      change j < 2 at hj
      interval_cases i <;> interval_cases j <;> first | omega | norm_num [erkMidpoint, RK.mk, vec]

include hE hlE in
/-- Tendencies of explicit terms exist. -/
theorem exists_tendency (hdE : ∀ x ∈ H, EE.mass x (W x) = 0 → x = 0) (hfin : FiniteDimensional ℝ H) (dt : ℝ) (x : V) :
    ∃ k ∈ H, ∀ y ∈ H, EE.mass k (W y) = dt * EE.res x x (W y) := by
  obtain ⟨F, i1, i2, i3, g, hg, hsur, hin⟩ := exists_inner (e := massForm EE W) hE.energy hdE hfin
  obtain ⟨z, hz⟩ := riesz (F := F)
    { toFun := fun y => dt * EE.res x x (W (g y))
      map_add' := fun y y' => by
        have : EE.res x x (W (g y + g y')) = EE.res x x (W (g y)) + EE.res x x (W (g y')) := (hlE.2 x).1 _ _
        rw [map_add, this, mul_add]
      map_smul' := fun a y => by
        have : EE.res x x (W (a • g y)) = a * EE.res x x (W (g y)) := (hlE.2 x).2 _ _
        rw [map_smul, this, RingHom.id_apply, smul_eq_mul, mul_left_comm] }
  refine ⟨g z, hg z, fun y hy => ?_⟩
  obtain ⟨y, rfl⟩ := hsur y hy
  exact (hin z y).symm.trans (hz y)

include hI hE hm hlI hlE hfI hdef hfin in
/-- C130: the steps exist, for implicit terms that add no energy and tables with a diagonal that is not negative. -/
theorem C130_step_exists (hW : ∀ w ∈ H, ∃ y ∈ H, W y = w) (hp : PassiveEqn EI H W) (TE TI : Tableau) (hT : ∀ i < TE.n, 0 ≤ TI.a i i)
    (t dt : ℝ) (hdt : 0 ≤ dt) (old : V) (ho : old ∈ H) :
    ∃ new ∈ H, ImexAt (fun _ _ => EI) (fun _ _ => EE) TE TI H Set.univ t dt old new := by
  have hdE : ∀ x ∈ H, EE.mass x (W x) = 0 → x = 0 := fun x hx h => hdef x hx (by rw [← hm]; exact h)
  have key : ∀ n ≤ TE.n, ∃ ke kd : ℕ → V, ∀ i < n, kd i ∈ H ∧ ke i ∈ H ∧
      (∀ y ∈ H, EI.mass (kd i) (W y) = EI.res (stageValue TI dt (stage TE old ke i) kd i) (stageValue TI dt (stage TE old ke i) kd i) (W y)) ∧
      ∀ y ∈ H, EE.mass (ke i) (W y) =
        dt * EE.res (stageValue TI dt (stage TE old ke i) kd i) (stageValue TI dt (stage TE old ke i) kd i) (W y) := by
    intro n
    induction n with
    | zero => exact fun _ => ⟨fun _ => 0, fun _ => 0, fun i hi => absurd hi (by omega)⟩
    | succ n ih =>
      intro hn
      obtain ⟨ke, kd, hk⟩ := ih (by omega)
      obtain ⟨z, hz, hz'⟩ := solve_implicit hI hlI hdef hfin hp (TI.a n n * dt) (mul_nonneg (hT n (by omega)) hdt)
        (stage TE old ke n + ∑ j ∈ range n, (TI.a n j * dt) • kd j)
      obtain ⟨q, hq, hq'⟩ := exists_tendency hE hlE hdE hfin dt
        (stage TE old ke n + ∑ j ∈ range n, (TI.a n j * dt) • kd j + (TI.a n n * dt) • z)
      have hs : ∀ i ≤ n, stage TE old (Function.update ke n q) i = stage TE old ke i := fun i hi => by
        unfold stage
        refine congrArg _ (sum_congr rfl fun j hj => ?_)
        rw [mem_range] at hj
        rw [Function.update_of_ne (by omega)]
      refine ⟨Function.update ke n q, Function.update kd n z, fun i hi => ?_⟩
      rw [hs i (by omega)]
      have hs1 : ∀ i < n, ∀ b, stageValue TI dt b (Function.update kd n z) i = stageValue TI dt b kd i := fun i hi b => by
        unfold stageValue
        refine congrArg _ (sum_congr rfl fun j hj => ?_)
        rw [mem_range] at hj
        rw [Function.update_of_ne (by omega)]
      rcases Nat.lt_succ_iff_lt_or_eq.1 hi with h | rfl
      · rw [hs1 i h, Function.update_of_ne (by omega), Function.update_of_ne (by omega)]
        exact hk i h
      · rw [Function.update_self, Function.update_self]
        have hs' : stageValue TI dt (stage TE old ke i) (Function.update kd i z) i =
            stage TE old ke i + ∑ j ∈ range i, (TI.a i j * dt) • kd j + (TI.a i i * dt) • z := by
          unfold stageValue
          rw [sum_range_succ, Function.update_self, add_assoc]
          refine congrArg (stage TE old ke i + ·) (congrArg (· + (TI.a i i * dt) • z) (sum_congr rfl fun j hj => ?_))
          rw [mem_range] at hj
          rw [Function.update_of_ne (by omega)]
        rw [hs']
        exact ⟨hz, hq, hz', hq'⟩
  obtain ⟨ke, kd, hk⟩ := key TE.n le_rfl
  refine ⟨_, H.add_mem (H.add_mem ho (H.sum_mem fun j hj => H.smul_mem _ (hk j (mem_range.1 hj)).2.1))
    (H.sum_mem fun j hj => H.smul_mem _ (hk j (mem_range.1 hj)).1), ke, kd, fun i hi => ⟨trivial, trivial, (hk i hi).1, fun w hw => ?_,
    (hk i hi).2.1, fun w hw => ?_⟩, rfl⟩
  · obtain ⟨y, hy, rfl⟩ := hW w hw
    have := (hk i hi).2.2.1 y hy
    change -EI.inner (kd i) (W y) + EI.res _ _ (W y) = 0
    rw [hI.inner, this, hfI _ (stage TE old ke i) (stageValue TI dt (stage TE old ke i) kd i)]
    ring
  · obtain ⟨y, hy, rfl⟩ := hW w hw
    exact (hk i hi).2.2.2 y hy

end Linear

/-! ### Waves -/

section Waves

variable {m : Mesh 2} {T : Swe.Term m} {K : Swe.Coeffs m} {bc : ℕ → Option (Swe.Funcs m)} {Hu : Submodule ℝ (Vc m)}
  {He : Submodule ℝ (Sc m)} {H : ℝ}

/-- The terms of the shallow water equations without those that are explicit. -/
def implicitCoeffs (K : Swe.Coeffs m) : Swe.Coeffs m :=
  { K with nu := none, wind := none, pressure := none, bottomDrag := none, uvBottom := none, source := none, volume := none }

theorem implicit_eq (T : Swe.Term m) (K : Swe.Coeffs m) (bc : ℕ → Option (Swe.Funcs m)) :
    sweImplicit T K bc = swe T (implicitCoeffs K) bc := by
  have : (sweImplicit T K bc).res = (swe T (implicitCoeffs K) bc).res := by
    funext u v w
    simp only [sweImplicit, swe, implicitCoeffs, Swe.momentum, Swe.continuity, Swe.viscosity, Swe.windStress, Swe.atmPressure,
      Swe.bottomDrag3d, Swe.momentumSource, Swe.volumeSource]
    ring
  calc sweImplicit T K bc = ⟨(swe T K bc).mass, (swe T K bc).inner, (sweImplicit T K bc).res⟩ := rfl
    _ = ⟨(swe T K bc).mass, (swe T K bc).inner, (swe T (implicitCoeffs K) bc).res⟩ := by rw [this]
    _ = _ := rfl

/-- C130: the implicit and the explicit terms make up the shallow water equations. -/
theorem C130_swe_split (T : Swe.Term m) (K : Swe.Coeffs m) (bc : ℕ → Option (Swe.Funcs m)) (u v w : State m) :
    (sweImplicit T K bc).res u v w + (sweExplicit T K bc).res u v w = (swe T K bc).res u v w := by
  simp only [sweImplicit, sweExplicit, swe, Swe.momentum, Swe.continuity]
  ring

theorem implicit_basin (B : Basin T K bc Hu He H) : Basin T (implicitCoeffs K) bc Hu He H where
  linear := B.linear
  depth := B.depth
  g_pos := B.g_pos
  depth_pos := B.depth_pos
  closed := B.closed
  flat := B.flat
  unit := B.unit
  uDg := B.uDg
  exact := B.exact
  free := ⟨rfl, rfl, rfl, rfl, rfl⟩
  drag := B.drag
  lindrag := B.lindrag
  walldrag := B.walldrag
  farms := B.farms
  visc _ _ _ _ := le_rfl

theorem implicit_noDrag (N : NoDrag K bc) : NoDrag (implicitCoeffs K) bc := ⟨N.cd, N.farms, N.wall⟩

/-- C130: waves in a closed basin without quadratic drag, with explicit viscosity.  `SSPIMEX` of `FlowSolver2d` is `IMEXLPUM2`, the first pair
of tables of second order.  The error is measured by the energy of waves. -/
theorem C130_waves (B : Basin T K bc Hu He H) (N : NoDrag K bc)
    (hdef : ∀ x ∈ Hu.prod He, (∀ c, (∀ i, (x.1 i (.cell c)).v = 0) ∧ (x.2 (.cell c)).v = 0) → x = 0)
    (hw : ∀ c, 0 < m.wC c) (hfin : FiniteDimensional ℝ (Hu.prod He)) (u0 : State m) (h0 : u0 ∈ Hu.prod He) (tEnd : ℝ) :
    ∃ U : ℝ → State m, U 0 = u0 ∧ (∀ t, 0 ≤ t → t ≤ tEnd → ∀ w ∈ Hu.prod He,
        deriv (fun s => (swe T K bc).mass (U s) w) t = (swe T K bc).res (U t) (U t) w) ∧
      ∀ p TE TI, (p, TE, TI) ∈ [(1, forwardEuler, backwardEuler), (2, erkLPUM2, dirkLPUM2), (2, erkLSPUM2, dirkLSPUM2),
          (2, erkMidpoint, esdirkMidpoint)] →
        (∃ C, 0 ≤ C ∧ ∃ top, 0 < top ∧ ∀ dt, 0 < dt → dt ≤ top → ∀ u : ℕ → State m, u 0 = u0 →
          (∀ n : ℕ, (n + 1) * dt ≤ tEnd → ImexAt (fun _ _ => sweImplicit T K bc) (fun _ _ => sweExplicit T K bc) TE TI (Hu.prod He) Set.univ
            (n * dt) dt (u n) (u (n + 1))) →
          ∀ n : ℕ, n * dt ≤ tEnd → Real.sqrt (waveEnergy T.g H (u n - U (n * dt))) ≤ C * dt ^ p) ∧
        ∀ t dt, 0 ≤ dt → ∀ old ∈ Hu.prod He, ∃ new ∈ Hu.prod He,
          ImexAt (fun _ _ => sweImplicit T K bc) (fun _ _ => sweExplicit T K bc) TE TI (Hu.prod He) Set.univ t dt old new := by
  have B' := implicit_basin B
  have N' := implicit_noDrag N
  have hres : ∀ u v w, (sweExplicit T K bc).res u v w = (swe T K bc).res u v w - (swe T (implicitCoeffs K) bc).res u v w := fun u v w => by
    rw [← C130_swe_split, implicit_eq]; ring
  have eI := B'.hasEnergy
  have lI := Basin.linearEqn B' N'
  have fI := Basin.fixed' B' N'
  have pI : PassiveEqn (swe T (implicitCoeffs K) bc) (Hu.prod He) (Contract.weight T.g H) := fun x hx => B'.passive x x hx
  have dI := Contract.Basin.definite B' hdef hw
  rw [← implicit_eq] at eI lI fI dI pI
  have eE : HasEnergy (sweExplicit T K bc) (Hu.prod He) (Contract.weight T.g H) := ⟨eI.maps, eI.energy, eI.inner⟩
  have lE : LinearEqn (sweExplicit T K bc) (Contract.weight T.g H) := by
    have l1 := Basin.linearEqn B N
    have l2 := Basin.linearEqn B' N'
    refine ⟨fun y => ?_, fun x => ?_⟩
    · simp only [hres]
      exact (l1.1 y).sub (l2.1 y)
    · simp only [hres]
      exact (l1.2 x).sub (l2.2 x)
  have fE : ∀ u v v' w, (sweExplicit T K bc).res u v w = (sweExplicit T K bc).res u v' w := fun u v v' w => by
    rw [hres, hres, Basin.fixed' B N u v v', Basin.fixed' B' N' u v v']
  obtain ⟨U, hU0, -, hUd, h1, h2⟩ := C130_linear eI eE (fun _ _ => rfl) lI lE fI fE dI hfin u0 h0 tEnd
  refine ⟨U, hU0, fun t a b w hw' => ?_, fun p TE TI hp => ⟨?_, fun t dt hdt old ho => ?_⟩⟩
  · obtain ⟨y, hy, rfl⟩ := B.onto w hw'
    rw [← C130_swe_split]
    exact hUd t a b y hy
  · have conv : ∀ TE TI (q : ℕ), Converges (massForm (sweImplicit T K bc) (Contract.weight T.g H))
        (ImexAt (fun _ _ => sweImplicit T K bc) (fun _ _ => sweExplicit T K bc) TE TI (Hu.prod He) Set.univ) tEnd U (fun dt => dt ^ q) →
        ∃ C, 0 ≤ C ∧ ∃ top, 0 < top ∧ ∀ dt, 0 < dt → dt ≤ top → ∀ u : ℕ → State m, u 0 = u0 →
          (∀ n : ℕ, (n + 1) * dt ≤ tEnd → ImexAt (fun _ _ => sweImplicit T K bc) (fun _ _ => sweExplicit T K bc) TE TI (Hu.prod He)
            Set.univ (n * dt) dt (u n) (u (n + 1))) →
          ∀ n : ℕ, n * dt ≤ tEnd → Real.sqrt (waveEnergy T.g H (u n - U (n * dt))) ≤ C * dt ^ q := by
      rintro TE TI q ⟨C, hC, top, ht, hh⟩
      refine ⟨C, hC, top, ht, fun dt a b u hu hs n hn => ?_⟩
      have := hh dt a b u (hu.trans hU0.symm) hs n hn
      rwa [size, massForm, implicit_eq, B'.energy] at this
    simp only [List.mem_cons, List.not_mem_nil, or_false, Prod.mk.injEq] at hp
    rcases hp with ⟨rfl, rfl, rfl⟩ | ⟨rfl, rfl, rfl⟩ | ⟨rfl, rfl, rfl⟩ | ⟨rfl, rfl, rfl⟩
    · exact conv _ _ _ (by simpa using h1)
    · exact conv _ _ _ (h2 _ _ (by simp))
    · exact conv _ _ _ (h2 _ _ (by simp))
    · exact conv _ _ _ (h2 _ _ (by simp))
  · refine C130_step_exists eI eE (fun _ _ => rfl) lI lE fI dI hfin B.onto pI TE TI (fun i hi => ?_) t dt hdt old ho
    simp only [List.mem_cons, List.not_mem_nil, or_false, Prod.mk.injEq] at hp
    rcases hp with ⟨-, rfl, rfl⟩ | ⟨-, rfl, rfl⟩ | ⟨-, rfl, rfl⟩ | ⟨-, rfl, rfl⟩
    · obtain rfl : i = 0 := by change i < 1 at hi; omega
      norm_num [backwardEuler, RK.mk, vec]
    · change i < 3 at hi
      interval_cases i <;> norm_num [dirkLPUM2, RK.mk, vec]
    · change i < 3 at hi
      interval_cases i <;> norm_num [dirkLSPUM2, RK.mk, vec]
    · change i < 2 at hi
      interval_cases i <;> norm_num [esdirkMidpoint, RK.mk, vec]

/-- The conditions hold on the square with rotation and linear drag. -/
example (u0 : State square) (h0 : u0 ∈ (Submodule.pi Set.univ fun _ => linears).prod linears) (tEnd : ℝ) :=
  C130_waves calmBasin ⟨rfl, rfl, fun _ => rfl⟩ linears_pair (fun _ => show (0 : ℝ) < 1 / 6 by norm_num) inferInstance u0 h0 tEnd

end Waves

end Verif.Imex
