import Verif.Converge.Props4
import Verif.Explicit.Props3
import Verif.Contract.Props3
import Mathlib.Analysis.SpecialFunctions.Exponential
import Mathlib.Analysis.Calculus.ContDiff.Deriv

/-!
C129 for waves and tracers: linear equations have a smooth solution, and the time integrators converge to it.
-/

namespace Verif.Converge

open Finset Verif.Contract Verif.Explicit Verif.Dg RK

universe u

/-- Linear equations in a normed space have a smooth solution. -/
theorem exists_flow {F : Type*} [NormedAddCommGroup F] [NormedSpace ℝ F] [CompleteSpace F] (A : F →L[ℝ] F) (x0 : F) :
    ∃ X : ℝ → F, X 0 = x0 ∧ (∀ t, HasDerivAt X (A (X t)) t) ∧ ∀ p : ℕ, ContDiff ℝ p X := by
  have hd : ∀ t : ℝ, HasDerivAt (fun s : ℝ => NormedSpace.exp (s • A) x0) (A (NormedSpace.exp (t • A) x0)) t := fun t => by
    have := (hasDerivAt_exp_smul_const' (𝕂 := ℝ) A t).clm_apply (hasDerivAt_const t x0)
    simpa using this
  refine ⟨fun t => NormedSpace.exp (t • A) x0, by simp, hd, fun p => ?_⟩
  induction p with
  | zero => exact contDiff_zero.2 (continuous_iff_continuousAt.2 fun t => (hd t).continuousAt)
  | succ p ih =>
    have e : ((p + 1 : ℕ) : WithTop ℕ∞) = (p : WithTop ℕ∞) + 1 := by push_cast; rfl
    rw [e, contDiff_succ_iff_deriv]
    refine ⟨fun t => (hd t).differentiableAt, fun h => absurd h (by simp), ?_⟩
    have : deriv (fun s : ℝ => NormedSpace.exp (s • A) x0) = fun t => A (NormedSpace.exp (t • A) x0) :=
      funext fun t => (hd t).deriv
    rw [this]
    exact A.contDiff.comp ih

variable {V : Type u} [AddCommGroup V] [Module ℝ V]

/-- The inner product `mass(x, W y)`. -/
def massForm (E : Eqn V) (W : V → V) : V → V → ℝ := fun x y => E.mass x (W y)

section Linear

variable {E : Eqn V} {H : Submodule ℝ V} {W : V → V} (hE : HasEnergy E H W) (hl : LinearEqn E W)
  (hfree : ∀ u v v' w, E.res u v w = E.res u v' w) (hdef : ∀ x ∈ H, E.mass x (W x) = 0 → x = 0)
  (hfin : FiniteDimensional ℝ H)

include hE hl hfree hdef hfin in
theorem linear_system : System (fun _ _ => E) H W (massForm E W) where
  maps := hE.maps
  energy := hE.energy
  mass _ _ _ _ := rfl
  inner _ _ x y := hE.inner x y
  definite := hdef
  finite := hfin
  test _ _ x v := by
    have : (fun y => E.res x v (W y)) = fun y => E.res x x (W y) := funext fun y => hfree _ _ _ _
    rw [this]
    exact hl.2 x

include hE hl hdef hfin in
/-- A linear equation has a smooth solution from every initial function, and is Lipschitz continuous. -/
theorem linear_solution (u0 : V) (h0 : u0 ∈ H) (tEnd : ℝ) :
    ∃ (U : ℝ → V) (L : ℝ), U 0 = u0 ∧ (∀ p, Solution (fun _ _ => E) H W (massForm E W) Set.univ p L tEnd U) ∧
      Derivative (fun _ _ => E) H W (massForm E W) Set.univ L 0 tEnd U fun _ x y => E.res x x (W y) := by
  obtain ⟨F, i1, i2, i3, g, hg, hsur, hin⟩ := exists_inner (e := massForm E W) hE.energy hdef hfin
  have hnorm : ∀ x, ‖x‖ = size (massForm E W) (g x) := fun x => by
    rw [size, ← hin, real_inner_self_eq_norm_sq, Real.sqrt_sq (norm_nonneg _)]
  obtain ⟨C, hC, hb⟩ := bilin_bound (LinearMap.mk₂ ℝ (fun x y : F => E.res (g x) (g x) (W (g y)))
    (fun x x' y => by rw [map_add]; exact hl.add_left _ _ _) (fun a x y => by rw [map_smul]; exact hl.smul_left _ _ _)
    (fun x y y' => by rw [map_add]; exact hl.add_right _ _ _) fun a x y => by rw [map_smul]; exact hl.smul_right _ _ _)
  have hb' : ∀ x ∈ H, ∀ y ∈ H, |E.res x x (W y)| ≤ C * size (massForm E W) x * size (massForm E W) y := fun x hx y hy => by
    obtain ⟨x, rfl⟩ := hsur x hx
    obtain ⟨y, rfl⟩ := hsur y hy
    rw [← hnorm, ← hnorm, abs_le]
    refine ⟨?_, hb x y⟩
    have h1 : E.res (g (-x)) (g (-x)) (W (g y)) ≤ C * ‖-x‖ * ‖y‖ := hb (-x) y
    have h2 : E.res (g (-x)) (g (-x)) (W (g y)) = -1 * E.res (g x) (g x) (W (g y)) := by
      have e : g (-x) = (-1 : ℝ) • g x := by rw [map_neg, neg_one_smul]
      rw [e]
      exact (hl.1 (g y)).2 (-1) (g x)
    rw [norm_neg] at h1
    linarith
  have hsub : ∀ x x' y, E.res x x (W y) - E.res x' x' (W y) = E.res (x - x') (x - x') (W y) := fun x x' y =>
    ((hl.1 y).map_sub x x').symm
  choose A hA using fun x : F => riesz (F := F)
    { toFun := fun y => E.res (g x) (g x) (W (g y))
      map_add' := fun y z => by rw [map_add]; exact (hl.2 _).1 _ _
      map_smul' := fun a y => by rw [map_smul]; exact (hl.2 _).2 _ _ }
  have hA' : ∀ x y, Inner.inner ℝ (A x) y = E.res (g x) (g x) (W (g y)) := hA
  let A' : F →ₗ[ℝ] F :=
    { toFun := A
      map_add' := fun x y => ext_inner_right ℝ fun z => by
        rw [inner_add_left, hA', hA', hA', map_add]
        exact (hl.1 _).1 _ _
      map_smul' := fun a x => ext_inner_right ℝ fun z => by
        rw [RingHom.id_apply, real_inner_smul_left, hA', hA', map_smul]
        exact (hl.1 _).2 _ _ }
  obtain ⟨x0, rfl⟩ := hsur u0 h0
  have : CompleteSpace F := FiniteDimensional.complete ℝ F
  obtain ⟨X, hX0, hXd, hXs⟩ := exists_flow (LinearMap.toContinuousLinearMap A') x0
  have hXd' : ∀ t, HasDerivAt X (A (X t)) t := hXd
  refine ⟨fun t => g (X t), C, congrArg g hX0, fun p => ⟨fun t => hg _, fun _ _ _ => trivial, fun y hy => ?_,
    fun t _ _ y hy => ?_, hC, fun t _ _ x hx _ x' hx' _ y hy => ?_⟩, ⟨fun _ => hl, le_rfl, fun _ _ _ x hx y hy => hb' x hx y hy,
    fun t s _ _ _ x hx _ y hy => ?_⟩⟩
  · obtain ⟨y, rfl⟩ := hsur y hy
    simp only [← hin]
    exact (hXs p).inner ℝ contDiff_const
  · obtain ⟨y, rfl⟩ := hsur y hy
    simp only [← hin]
    rw [← hA']
    have := ((hXd' t).inner ℝ (hasDerivAt_const t y)).deriv
    simpa using this
  · rw [hsub]
    exact hb' _ (H.sub_mem hx hx') y hy
  · rw [hsub]
    simp

include hE hl hfree hdef hfin in
/-- C129: for a linear equation with fields and boundary conditions that do not change, there is a solution of the equations in continuous time from every
initial function, and the time integrators converge to it with their order. -/
theorem C129_linear (u0 : V) (h0 : u0 ∈ H) (tEnd : ℝ) : ∃ U : ℝ → V, U 0 = u0 ∧ (∀ t, U t ∈ H) ∧
    (∀ t, 0 ≤ t → t ≤ tEnd → ∀ y ∈ H, deriv (fun s => E.mass (U s) (W y)) t = E.res (U t) (U t) (W y)) ∧
    Converges (massForm E W) (EulerAt (fun _ _ => E) H Set.univ) tEnd U (fun dt => dt) ∧
    Converges (massForm E W) (ShuOsherAt (fun _ _ => E) ssprk33 H Set.univ) tEnd U (fun dt => dt ^ 3) ∧
    ∀ semi,
      Converges (massForm E W) (CrankAt (fun _ _ => E) (1 / 2) semi H Set.univ) tEnd U (fun dt => dt ^ 2) ∧
      Converges (massForm E W) (UAt (fun _ _ => E) backwardEuler semi H Set.univ) tEnd U (fun dt => dt) ∧
      Converges (massForm E W) (UAt (fun _ _ => E) dirk22 semi H Set.univ) tEnd U (fun dt => dt ^ 2) ∧
      Converges (massForm E W) (UAt (fun _ _ => E) dirk33 semi H Set.univ) tEnd U (fun dt => dt ^ 3 + 3 / 10 ^ 11 * dt) ∧
      ∀ T, Nodes T →
        (HasOrder T 1 → Converges (massForm E W) (TendencyAt (fun _ _ => E) T semi H Set.univ) tEnd U fun dt => dt) ∧
        (HasOrder T 2 → Converges (massForm E W) (TendencyAt (fun _ _ => E) T semi H Set.univ) tEnd U fun dt => dt ^ 2) ∧
        (HasOrder T 3 → Converges (massForm E W) (TendencyAt (fun _ _ => E) T semi H Set.univ) tEnd U fun dt => dt ^ 3) := by
  obtain ⟨U, L, hU0, hU, hD⟩ := linear_solution hE hl hdef hfin u0 h0 tEnd
  have hS := linear_system hE hl hfree hdef hfin
  have hF : Free fun _ _ : ℝ => E := fun _ _ => hfree
  have hB : SteadyBnd fun _ _ : ℝ => E := fun _ _ _ => rfl
  refine ⟨U, hU0, (hU 0).mem, (hU 0).eqn, C129_euler hS hB (hU 2), C129_ssprk33 hS (hU 4) hD, fun semi => ⟨?_,
    C129_backwardEuler hS semi (Or.inr hF) (hU 2), C129_dirk22 hS semi (Or.inr hF) (hU 3),
    C129_dirk33 hS semi (Or.inr hF) (hU 4) hD, fun T hc => ?_⟩⟩
  · have := C129_crank hS semi (Or.inr hF) hB (1 / 2) (hU 3)
    simpa using this
  · obtain ⟨a, b, c⟩ := C129_tendency (S := Set.univ) (L := L) (tEnd := tEnd) (U := U) hS hF hc semi
    exact ⟨fun h => a h (hU 2), fun h => b h (hU 3), fun h => c h (hU 4) hD⟩

end Linear

/-! ### Existence of the steps -/

section Exists

variable {E : Eqn V} {H : Submodule ℝ V} {W : V → V} (hE : HasEnergy E H W) (hl : LinearEqn E W)
  (hfree : ∀ u v v' w, E.res u v w = E.res u v' w) (hdef : ∀ x ∈ H, E.mass x (W x) = 0 → x = 0)
  (hfin : FiniteDimensional ℝ H) (hW : ∀ w ∈ H, ∃ y ∈ H, W y = w)

include hE hl hdef hfin in
/-- Implicit systems of equations that add no energy have a solution. -/
theorem solve_implicit (hp : PassiveEqn E H W) (c : ℝ) (hc : 0 ≤ c) (b : V) :
    ∃ k ∈ H, ∀ y ∈ H, E.mass k (W y) = E.res (b + c • k) (b + c • k) (W y) := by
  let r : H →ₗ[ℝ] Module.Dual ℝ H := LinearMap.mk₂ ℝ (fun x y : H => E.mass x (W y) - c * E.res x x (W y))
    (fun x x' y => by
      have h1 : E.mass (x + x') (W y) = E.mass x (W y) + E.mass x' (W y) := hE.energy.lin.add_left _ _ _
      have h2 : E.res (x + x') (x + x') (W y) = E.res x x (W y) + E.res x' x' (W y) := hl.add_left _ _ _
      rw [Submodule.coe_add, h1, h2]; ring)
    (fun a x y => by
      have h1 : E.mass (a • (x : V)) (W y) = a * E.mass x (W y) := hE.energy.lin.smul_left _ _ _
      have h2 : E.res (a • (x : V)) (a • (x : V)) (W y) = a * E.res x x (W y) := hl.smul_left _ _ _
      rw [Submodule.coe_smul, h1, h2, smul_eq_mul]; ring)
    (fun x y y' => by
      have h1 : E.mass x (W (y + y')) = E.mass x (W y) + E.mass x (W y') := hE.energy.lin.add_right _ _ _
      have h2 : E.res x x (W (y + y')) = E.res x x (W y) + E.res x x (W y') := hl.add_right _ _ _
      rw [Submodule.coe_add, h1, h2]; ring)
    fun a x y => by
      have h1 : E.mass x (W (a • (y : V))) = a * E.mass x (W y) := hE.energy.lin.smul_right _ _ _
      have h2 : E.res x x (W (a • (y : V))) = a * E.res x x (W y) := hl.smul_right _ _ _
      rw [Submodule.coe_smul, h1, h2, smul_eq_mul]; ring
  have hr : ∀ x y : H, r x y = E.mass x (W y) - c * E.res x x (W y) := fun _ _ => rfl
  have hinj : Function.Injective r := by
    rw [← LinearMap.ker_eq_bot, LinearMap.ker_eq_bot']
    intro x hx
    have h1 : r x x = 0 := by rw [hx]; rfl
    rw [hr] at h1
    have h2 : 0 ≤ E.mass x (W x) := hE.energy.nonneg x
    have h3 := hp x x.2
    exact Subtype.ext (hdef x x.2 (by nlinarith))
  have hsurj : Function.Surjective r :=
    (LinearMap.injective_iff_surjective_of_finrank_eq_finrank Subspace.dual_finrank_eq.symm).1 hinj
  let R : Module.Dual ℝ H :=
    { toFun := fun y => E.res b b (W y)
      map_add' := fun y z => (hl.2 b).1 _ _
      map_smul' := fun t y => (hl.2 b).2 _ _ }
  obtain ⟨k, hk⟩ := hsurj R
  refine ⟨k, k.2, fun y hy => ?_⟩
  have h1 := LinearMap.congr_fun hk ⟨y, hy⟩
  rw [hr] at h1
  change E.mass k (W y) - c * E.res k k (W y) = E.res b b (W y) at h1
  have h2 : E.res (b + c • (k : V)) (b + c • (k : V)) (W y) = E.res b b (W y) + c * E.res k k (W y) :=
    ((hl.1 y).1 b _).trans (congrArg _ ((hl.1 y).2 c k))
  rw [h2]
  linarith

include hE hl hfree hdef hfin hW in
/-- C129: steps of `DIRKGeneric` exist, for equations that add no energy and tables with a diagonal that is not negative. -/
theorem C129_tendency_exists (hp : PassiveEqn E H W) (T : Tableau) (hT : ∀ i < T.n, 0 ≤ T.a i i) (semi : Bool) (t dt : ℝ)
    (hdt : 0 ≤ dt) (old : V) (ho : old ∈ H) : ∃ new ∈ H, TendencyAt (fun _ _ => E) T semi H Set.univ t dt old new := by
  have key : ∀ n ≤ T.n, ∃ k : ℕ → V, ∀ i < n, k i ∈ H ∧ ∀ y ∈ H,
      E.mass (k i) (W y) = E.res (stageValue T dt old k i) (stageValue T dt old k i) (W y) := by
    intro n
    induction n with
    | zero => exact fun _ => ⟨fun _ => 0, fun i hi => absurd hi (by omega)⟩
    | succ n ih =>
      intro hn
      obtain ⟨k, hk⟩ := ih (by omega)
      obtain ⟨z, hz, hz'⟩ := solve_implicit hE hl hdef hfin hp (T.a n n * dt) (mul_nonneg (hT n (by omega)) hdt)
        (old + ∑ j ∈ range n, (T.a n j * dt) • k j)
      refine ⟨Function.update k n z, fun i hi => ?_⟩
      have hs : ∀ i < n, stageValue T dt old (Function.update k n z) i = stageValue T dt old k i := fun i hi => by
        unfold stageValue
        refine congrArg _ (sum_congr rfl fun j hj => ?_)
        rw [mem_range] at hj
        rw [Function.update_of_ne (by omega)]
      rcases Nat.lt_succ_iff_lt_or_eq.1 hi with h | rfl
      · rw [hs i h, Function.update_of_ne (by omega)]
        exact hk i h
      · rw [Function.update_self]
        have hs' : stageValue T dt old (Function.update k i z) i =
            old + ∑ j ∈ range i, (T.a i j * dt) • k j + (T.a i i * dt) • z := by
          unfold stageValue
          rw [sum_range_succ, Function.update_self, add_assoc]
          refine congrArg (old + ·) (congrArg (· + (T.a i i * dt) • z) (sum_congr rfl fun j hj => ?_))
          rw [mem_range] at hj
          rw [Function.update_of_ne (by omega)]
        rw [hs']
        exact ⟨hz, hz'⟩
  obtain ⟨k, hk⟩ := key T.n le_rfl
  refine ⟨_, H.add_mem ho (H.sum_mem fun j hj => H.smul_mem _ (hk j (mem_range.1 hj)).1), k, fun i hi =>
    ⟨(hk i hi).1, trivial, fun w hw => ?_⟩, rfl⟩
  obtain ⟨y, hy, rfl⟩ := hW w hw
  have := (hk i hi).2 y hy
  change -E.inner (k i) (W y) + E.res _ _ (W y) = 0
  rw [hE.inner, this, hfree _ (stageLin T dt semi old k i) (stageValue T dt old k i)]
  ring

include hE hl hfree hdef hfin hW in
/-- C129: runs of `DIRKGeneric` of any number of steps exist. -/
theorem C129_runs_exist (hp : PassiveEqn E H W) (T : Tableau) (hT : ∀ i < T.n, 0 ≤ T.a i i) (semi : Bool) (tEnd dt : ℝ)
    (hdt : 0 ≤ dt) (u0 : V) (h0 : u0 ∈ H) : ∃ u : ℕ → V, u 0 = u0 ∧
      Steps (TendencyAt (fun _ _ => E) T semi H Set.univ) tEnd dt u := by
  have step : ∀ (t : ℝ) (x : H), ∃ y : H, TendencyAt (fun _ _ => E) T semi H Set.univ t dt x y := fun t x => by
    obtain ⟨y, hy, h⟩ := C129_tendency_exists hE hl hfree hdef hfin hW hp T hT semi t dt hdt x x.2
    exact ⟨⟨y, hy⟩, h⟩
  choose next hnext using step
  obtain ⟨v, hv0, hv⟩ : ∃ v : ℕ → H, v 0 = ⟨u0, h0⟩ ∧ ∀ n : ℕ, v (n + 1) = next (n * dt) (v n) :=
    ⟨fun n => Nat.rec ⟨u0, h0⟩ (fun k x => next (k * dt) x) n, rfl, fun _ => rfl⟩
  refine ⟨fun n => (v n : V), by simp [hv0], fun n _ => ?_⟩
  simp only [hv]
  exact hnext (n * dt) (v n)

end Exists

/-! ### Waves and tracers -/

section Waves

variable {m : Mesh 2} {T : Swe.Term m} {K : Swe.Coeffs m} {bc : ℕ → Option (Swe.Funcs m)} {Hu : Submodule ℝ (Vc m)}
  {He : Submodule ℝ (Sc m)} {H : ℝ}

/-- C129: waves in a closed basin without quadratic drag.  The error is measured by the energy of waves. -/
theorem C129_waves (B : Basin T K bc Hu He H) (N : NoDrag K bc)
    (hdef : ∀ x ∈ Hu.prod He, (∀ c, (∀ i, (x.1 i (.cell c)).v = 0) ∧ (x.2 (.cell c)).v = 0) → x = 0)
    (hw : ∀ c, 0 < m.wC c) (hfin : FiniteDimensional ℝ (Hu.prod He)) (u0 : State m) (h0 : u0 ∈ Hu.prod He) (tEnd : ℝ) :
    ∃ U : ℝ → State m, U 0 = u0 ∧ (∀ t, 0 ≤ t → t ≤ tEnd → ∀ w ∈ Hu.prod He,
        deriv (fun s => (swe T K bc).mass (U s) w) t = (swe T K bc).res (U t) (U t) w) ∧
      ∀ p Step, (p, Step) ∈ [(1, UAt (fun _ _ => swe T K bc) backwardEuler), (2, UAt (fun _ _ => swe T K bc) dirk22),
          (2, CrankAt (fun _ _ => swe T K bc) (1 / 2)), (3, fun _ => ShuOsherAt (fun _ _ => swe T K bc) ssprk33)] →
        ∀ semi, ∃ C, 0 ≤ C ∧ ∃ top, 0 < top ∧ ∀ dt, 0 < dt → dt ≤ top → ∀ u : ℕ → State m, u 0 = u0 →
          (∀ n : ℕ, (n + 1) * dt ≤ tEnd → Step semi (Hu.prod He) Set.univ (n * dt) dt (u n) (u (n + 1))) →
          ∀ n : ℕ, n * dt ≤ tEnd → Real.sqrt (waveEnergy T.g H (u n - U (n * dt))) ≤ C * dt ^ p := by
  obtain ⟨U, hU0, hUm, hUd, -, h3, h⟩ := C129_linear B.hasEnergy (Basin.linearEqn B N) (Basin.fixed' B N)
    (Contract.Basin.definite B hdef hw) hfin u0 h0 tEnd
  refine ⟨U, hU0, fun t a b w hw' => ?_, fun p Step hp semi => ?_⟩
  · obtain ⟨y, hy, rfl⟩ := B.onto w hw'
    exact hUd t a b y hy
  · have conv : ∀ St (q : ℕ), Converges (massForm (swe T K bc) (weight T.g H)) St tEnd U (fun dt => dt ^ q) →
        ∃ C, 0 ≤ C ∧ ∃ top, 0 < top ∧ ∀ dt, 0 < dt → dt ≤ top → ∀ u : ℕ → State m, u 0 = u0 →
          (∀ n : ℕ, (n + 1) * dt ≤ tEnd → St (n * dt) dt (u n) (u (n + 1))) →
          ∀ n : ℕ, n * dt ≤ tEnd → Real.sqrt (waveEnergy T.g H (u n - U (n * dt))) ≤ C * dt ^ q := by
      rintro St q ⟨C, hC, top, ht, hh⟩
      refine ⟨C, hC, top, ht, fun dt a b u hu hs n hn => ?_⟩
      have := hh dt a b u (hu.trans hU0.symm) hs n hn
      rwa [size, massForm, B.energy] at this
    obtain ⟨c1, c2, c3, -⟩ := h semi
    simp only [List.mem_cons, List.not_mem_nil, or_false, Prod.mk.injEq] at hp
    rcases hp with ⟨rfl, rfl⟩ | ⟨rfl, rfl⟩ | ⟨rfl, rfl⟩ | ⟨rfl, rfl⟩
    · exact conv _ _ (by simpa using c2)
    · exact conv _ _ c3
    · exact conv _ _ c1
    · exact conv _ _ h3

end Waves

section Tracer

variable {m : Mesh 2} {T : Tracer2.Term m} {F : Tracer2.Flow m} {mu : Option (Sc m)} {bc : ℕ → Option (Tracer2.BFuncs m)}
  {H : Submodule ℝ (Sc m)}

/-- C129: a tracer in a flow without divergence. -/
theorem C129_tracer (C : Carried T F mu bc H) (hdef : ∀ c ∈ H, (∀ x, (c (.cell x)).v = 0) → c = 0) (hw : ∀ x, 0 < m.wC x)
    (hfin : FiniteDimensional ℝ H) (c0 : Sc m) (h0 : c0 ∈ H) (tEnd : ℝ) :
    ∃ U : ℝ → Sc m, U 0 = c0 ∧ (∀ t, 0 ≤ t → t ≤ tEnd → ∀ w ∈ H,
        deriv (fun s => ip (U s) w) t = (tracer2 T F mu bc).res (U t) (U t) w) ∧
      ∀ p Step, (p, Step) ∈ [(1, UAt (fun _ _ => tracer2 T F mu bc) backwardEuler),
          (2, UAt (fun _ _ => tracer2 T F mu bc) dirk22), (2, CrankAt (fun _ _ => tracer2 T F mu bc) (1 / 2)),
          (3, fun _ => ShuOsherAt (fun _ _ => tracer2 T F mu bc) ssprk33)] →
        ∀ semi, ∃ A, 0 ≤ A ∧ ∃ top, 0 < top ∧ ∀ dt, 0 < dt → dt ≤ top → ∀ u : ℕ → Sc m, u 0 = c0 →
          (∀ n : ℕ, (n + 1) * dt ≤ tEnd → Step semi H Set.univ (n * dt) dt (u n) (u (n + 1))) →
          ∀ n : ℕ, n * dt ≤ tEnd →
            Real.sqrt (m.dx fun x => ((u n - U (n * dt)) (.cell x)).v ^ 2) ≤ A * dt ^ p := by
  have hd : ∀ x ∈ H, (tracer2 T F mu bc).mass x (id x) = 0 → x = 0 := fun c hc h0 => hdef c hc fun x => by
    have y := (sum_eq_zero_iff_of_nonneg fun _ _ => mul_nonneg (hw _).le (mul_self_nonneg _)).1 h0 x (mem_univ x)
    exact mul_self_eq_zero.1 ((mul_eq_zero.1 y).resolve_left (hw x).ne')
  obtain ⟨U, hU0, hUm, hUd, -, h3, h⟩ := C129_linear C.hasEnergy (C.linear 0) (fun _ _ _ _ => rfl) hd hfin c0 h0 tEnd
  refine ⟨U, hU0, hUd, fun p Step hp semi => ?_⟩
  have conv : ∀ St (q : ℕ), Converges (massForm (tracer2 T F mu bc) id) St tEnd U (fun dt => dt ^ q) →
      ∃ A, 0 ≤ A ∧ ∃ top, 0 < top ∧ ∀ dt, 0 < dt → dt ≤ top → ∀ u : ℕ → Sc m, u 0 = c0 →
        (∀ n : ℕ, (n + 1) * dt ≤ tEnd → St (n * dt) dt (u n) (u (n + 1))) →
        ∀ n : ℕ, n * dt ≤ tEnd → Real.sqrt (m.dx fun x => ((u n - U (n * dt)) (.cell x)).v ^ 2) ≤ A * dt ^ q := by
    rintro St q ⟨A, hA, top, ht, hh⟩
    refine ⟨A, hA, top, ht, fun dt a b u hu hs n hn => ?_⟩
    have := hh dt a b u (hu.trans hU0.symm) hs n hn
    rw [tracer_sq]
    exact this
  obtain ⟨c1, c2, c3, -⟩ := h semi
  simp only [List.mem_cons, List.not_mem_nil, or_false, Prod.mk.injEq] at hp
  rcases hp with ⟨rfl, rfl⟩ | ⟨rfl, rfl⟩ | ⟨rfl, rfl⟩ | ⟨rfl, rfl⟩
  · exact conv _ _ (by simpa using c2)
  · exact conv _ _ c3
  · exact conv _ _ c1
  · exact conv _ _ h3

end Tracer

end Verif.Converge
