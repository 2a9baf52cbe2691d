import Verif.Explicit.Props
import Verif.Contract.Props3
import Mathlib.Analysis.InnerProductSpace.Basic
import Mathlib.Topology.Algebra.Module.FiniteDimension
import Mathlib.Analysis.Normed.Module.FiniteDimension
import Mathlib.Analysis.Normed.Operator.Bilinear

/-!
C128: there is always such a time step; tracers and waves; inertial motion.
-/

namespace Verif.Explicit

open Finset Verif.Contract Verif.Dg

section

variable {V : Type*} [AddCommGroup V] [Module ℝ V]

/-- Bilinear forms on a space of finite dimension are bounded. -/
theorem bilin_bound {F : Type*} [NormedAddCommGroup F] [InnerProductSpace ℝ F] [FiniteDimensional ℝ F]
    (r : F →ₗ[ℝ] F →ₗ[ℝ] ℝ) : ∃ C : ℝ, 0 ≤ C ∧ ∀ x y, r x y ≤ C * ‖x‖ * ‖y‖ := by
  let Φ : F →ₗ[ℝ] (F →L[ℝ] ℝ) :=
    { toFun := fun x => LinearMap.toContinuousLinearMap (r x)
      map_add' := fun x y => by ext z; simp
      map_smul' := fun t y => by ext z; simp }
  let Ψ : F →L[ℝ] (F →L[ℝ] ℝ) := LinearMap.toContinuousLinearMap Φ
  exact ⟨‖Ψ‖, Ψ.opNorm_nonneg, fun x y => (le_abs_self _).trans (Ψ.le_opNorm₂ x y)⟩

/-- C128: for every limit there is a time step below which it holds. -/
theorem C128_limit_exists (E : Eqn V) (H : Submodule ℝ V) (W : V → V) [FiniteDimensional ℝ H] (hE : HasEnergy E H W)
    (hl : LinearEqn E W) (hdef : ∀ x ∈ H, E.mass x (W x) = 0 → x = 0) (c : ℝ) (hc : 0 < c) :
    ∃ top > 0, ∀ dt, 0 ≤ dt → dt ≤ top → Limit E dt H W c := by
  have he := hE.energy
  obtain ⟨e, hed⟩ : ∃ e : V → V → ℝ, e = fun x y => E.mass x (W y) := ⟨_, rfl⟩
  obtain ⟨r, hrd⟩ : ∃ r : V → V → ℝ, r = fun x y => E.res x x (W y) := ⟨_, rfl⟩
  have he' : IsEnergy e := hed ▸ he
  have hr : Bilin r := hrd ▸ hl
  let core : InnerProductSpace.Core ℝ H :=
    { inner := fun x y => e x y
      conj_inner_symm := fun x y => he'.symm _ _
      re_inner_nonneg := fun x => he'.nonneg _
      add_left := fun x y z => he'.lin.add_left _ _ _
      smul_left := fun x y t => he'.lin.smul_left _ _ _
      definite := fun x h => Subtype.ext (hdef x x.2 (by rw [hed] at h; exact h)) }
  let i1 : NormedAddCommGroup H := core.toNormedAddCommGroup
  let i2 : InnerProductSpace ℝ H := InnerProductSpace.ofCore core.toCore
  have hin : ∀ x : H, ‖x‖ ^ 2 = e x x := fun x => (real_inner_self_eq_norm_sq x).symm
  obtain ⟨C, h0, hb⟩ : ∃ C : ℝ, 0 ≤ C ∧ ∀ x y : H, r x y ≤ C * ‖x‖ * ‖y‖ :=
    @bilin_bound H i1 i2 ‹FiniteDimensional ℝ H› (LinearMap.mk₂ ℝ (fun x y : H => r x y)
      (fun _ _ _ => hr.add_left _ _ _) (fun _ _ _ => hr.smul_left _ _ _) (fun _ _ _ => hr.add_right _ _ _)
      fun _ _ _ => hr.smul_right _ _ _)
  refine ⟨Real.sqrt c / (C + 1), by positivity, fun dt hdt hle x hx k hk h => ?_⟩
  have h1 : e k k = dt * r x k := by rw [hed, hrd]; exact h k hk
  have h2 : e k k ≤ c * e x x := by
    have a := hb ⟨x, hx⟩ ⟨k, hk⟩
    have b1 := hin ⟨x, hx⟩
    have b2 := hin ⟨k, hk⟩
    simp only at a b1 b2
    obtain ⟨X, hX⟩ : ∃ X, X = ‖(⟨x, hx⟩ : H)‖ := ⟨_, rfl⟩
    obtain ⟨K, hK⟩ : ∃ K, K = ‖(⟨k, hk⟩ : H)‖ := ⟨_, rfl⟩
    have hX0 : 0 ≤ X := hX ▸ norm_nonneg _
    have hK0 : 0 ≤ K := hK ▸ norm_nonneg _
    rw [← hX, ← hK] at a
    rw [← hX] at b1
    rw [← hK] at b2
    have d1 : dt * C ≤ Real.sqrt c := by
      rw [le_div_iff₀ (by linarith)] at hle
      nlinarith
    have d2 : K ^ 2 ≤ Real.sqrt c * X * K := by
      calc K ^ 2 = dt * r x k := by rw [b2, h1]
        _ ≤ dt * (C * X * K) := mul_le_mul_of_nonneg_left a hdt
        _ = dt * C * (X * K) := by ring
        _ ≤ Real.sqrt c * (X * K) := mul_le_mul_of_nonneg_right d1 (mul_nonneg hX0 hK0)
        _ = _ := by ring
    have d3 : K ≤ Real.sqrt c * X := by
      rcases eq_or_lt_of_le hK0 with hz | hz
      · rw [← hz]; positivity
      · by_contra hn
        push Not at hn
        nlinarith
    rw [← b1, ← b2]
    have d4 : K ^ 2 ≤ (Real.sqrt c * X) ^ 2 := pow_le_pow_left₀ hK0 d3 2
    rwa [mul_pow, Real.sq_sqrt hc.le] at d4
  rw [hed] at h2
  exact h2

end

/-! ### Tracers -/

section Tracer

variable {m : Mesh 2} {T : Tracer2.Term m} {F : Tracer2.Flow m} {mu : Option (Sc m)} {bc : ℕ → Option (Tracer2.BFuncs m)}
  {H : Submodule ℝ (Sc m)}

theorem tracer_sq (a : Sc m) : (m.dx fun x => (a (.cell x)).v ^ 2) = ip a a := dx_congr fun _ => sq _

/-- C128: `SSPRK33` does not increase the square of a tracer if no change of a function of the space over one time step has a larger square than the function. -/
theorem C128_tracer (C : Carried T F mu bc H) (dt : ℝ) (old new : Sc m) (ho : old ∈ H) (hdt : 0 ≤ dt)
    (hc : ∀ x ∈ H, ∀ k ∈ H, (∀ y ∈ H, ip k y = dt * (tracer2 T F mu bc).res x x y) →
      (m.dx fun p => (k (.cell p)).v ^ 2) ≤ m.dx fun p => (x (.cell p)).v ^ 2)
    (h : Ssprk33Step (tracer2 T F mu bc) dt H old new) :
    (m.dx fun x => (new (.cell x)).v ^ 2) ≤ m.dx fun x => (old (.cell x)).v ^ 2 := by
  rw [tracer_sq, tracer_sq]
  refine C128_ssprk33 _ H id dt old new C.hasEnergy (C.linear 0) (fun x => C.passive x x) ho hdt (fun x hx k hk hy => ?_) h
  have := hc x hx k hk hy
  rw [tracer_sq, tracer_sq] at this
  rw [one_mul]
  exact this

/-- C128: such a time step always exists. -/
theorem C128_tracer_exists (C : Carried T F mu bc H) [FiniteDimensional ℝ H]
    (hdef : ∀ c ∈ H, (∀ x, (c (.cell x)).v = 0) → c = 0) (hw : ∀ x, 0 < m.wC x) :
    ∃ top > 0, ∀ dt, 0 ≤ dt → dt ≤ top → ∀ old ∈ H, ∀ new, Ssprk33Step (tracer2 T F mu bc) dt H old new →
      (m.dx fun x => (new (.cell x)).v ^ 2) ≤ m.dx fun x => (old (.cell x)).v ^ 2 := by
  obtain ⟨top, ht, h⟩ := C128_limit_exists (tracer2 T F mu bc) H id C.hasEnergy (C.linear 0) (fun c hc h0 => hdef c hc fun x => by
    have y := (sum_eq_zero_iff_of_nonneg fun _ _ => mul_nonneg (hw _).le (mul_self_nonneg _)).1 h0 x (mem_univ x)
    exact mul_self_eq_zero.1 ((mul_eq_zero.1 y).resolve_left (hw x).ne')) 1 one_pos
  refine ⟨top, ht, fun dt h0 h1 old ho new hs => ?_⟩
  rw [tracer_sq, tracer_sq]
  exact C128_ssprk33 _ H id dt old new C.hasEnergy (C.linear 0) (fun x hx => C.passive x x hx) ho h0 (h dt h0 h1) hs

end Tracer

/-! ### Waves -/

section Waves

variable {m : Mesh 2} {T : Swe.Term m} {K : Swe.Coeffs m} {bc : ℕ → Option (Swe.Funcs m)} {Hu : Submodule ℝ (Vc m)}
  {He : Submodule ℝ (Sc m)} {H : ℝ}

theorem Basin.fixed' (B : Basin T K bc Hu He H) (N : NoDrag K bc) (u v v' w : State m) :
    (swe T K bc).res u v w = (swe T K bc).res u v' w := by
  rcases B.fixed false (Or.inr N) with h | h
  · cases h
  · exact h u v v' w

theorem Basin.linearEqn (B : Basin T K bc Hu He H) (N : NoDrag K bc) : LinearEqn (swe T K bc) (weight T.g H) := by
  have := B.linear' 0
  unfold Linear at this
  unfold LinearEqn
  have e : (fun x y => (swe T K bc).res x x (weight T.g H y)) = fun x y => (swe T K bc).res x 0 (weight T.g H y) :=
    funext fun x => funext fun y => Basin.fixed' B N _ _ _ _
  rw [e]
  exact this

/-- C128: `SSPRK33` does not create energy of waves in a closed basin without quadratic drag with a CFL number of at most one. -/
theorem C128_waves (B : Basin T K bc Hu He H) (N : NoDrag K bc) (dt : ℝ) (old new : State m) (ho : old ∈ Hu.prod He)
    (hdt : 0 ≤ dt) (hc : Limit (swe T K bc) dt (Hu.prod He) (weight T.g H) 1)
    (h : Ssprk33Step (swe T K bc) dt (Hu.prod He) old new) : waveEnergy T.g H new ≤ waveEnergy T.g H old := by
  rw [← B.energy, ← B.energy]
  exact C128_ssprk33 _ _ _ dt old new B.hasEnergy (Basin.linearEqn B N) (fun x hx => B.passive x x hx) ho hdt hc h

theorem Basin.definite (B : Basin T K bc Hu He H) (hw : ∀ c, 0 < m.wC c) (x : State m)
    (h0 : (swe T K bc).mass x (weight T.g H x) = 0) (c : m.C) : (∀ i, (x.1 i (.cell c)).v = 0) ∧ (x.2 (.cell c)).v = 0 := by
  rw [B.energy, waveEnergy] at h0
  have n1 : 0 ≤ m.dx fun c => ∑ i, (x.1 i (.cell c)).v ^ 2 := dx_nonneg fun c => sum_nonneg fun i _ => sq_nonneg _
  have n2 : 0 ≤ m.dx fun c => (x.2 (.cell c)).v ^ 2 := dx_nonneg fun c => sq_nonneg _
  have p1 := B.depth_pos
  have p2 := B.g_pos
  have z1 : (m.dx fun c => ∑ i, (x.1 i (.cell c)).v ^ 2) = 0 := by
    nlinarith [mul_nonneg p1.le n1, mul_nonneg p2.le n2]
  have z2 : (m.dx fun c => (x.2 (.cell c)).v ^ 2) = 0 := by
    nlinarith [mul_nonneg p1.le n1, mul_nonneg p2.le n2]
  have y1 := (sum_eq_zero_iff_of_nonneg fun c _ => mul_nonneg (hw c).le (sum_nonneg fun i _ => sq_nonneg _)).1 z1 c
    (mem_univ c)
  have y2 := (sum_eq_zero_iff_of_nonneg fun c _ => mul_nonneg (hw c).le (sq_nonneg _)).1 z2 c (mem_univ c)
  have x1 := (mul_eq_zero.1 y1).resolve_left (hw c).ne'
  have x2 := (mul_eq_zero.1 y2).resolve_left (hw c).ne'
  refine ⟨fun i => ?_, by simpa using x2⟩
  have := (sum_eq_zero_iff_of_nonneg fun i _ => sq_nonneg _).1 x1 i (mem_univ i)
  simpa using this

/-- C128: such a time step always exists. -/
theorem C128_waves_exists (B : Basin T K bc Hu He H) (N : NoDrag K bc) [FiniteDimensional ℝ (Hu.prod He)]
    (hdef : ∀ x ∈ Hu.prod He, (∀ c, (∀ i, (x.1 i (.cell c)).v = 0) ∧ (x.2 (.cell c)).v = 0) → x = 0) (hw : ∀ c, 0 < m.wC c) :
    ∃ top > 0, ∀ dt, 0 ≤ dt → dt ≤ top → ∀ old ∈ Hu.prod He, ∀ new, Ssprk33Step (swe T K bc) dt (Hu.prod He) old new →
      waveEnergy T.g H new ≤ waveEnergy T.g H old := by
  obtain ⟨top, ht, h⟩ := C128_limit_exists (swe T K bc) (Hu.prod He) _ B.hasEnergy (Basin.linearEqn B N) (fun x hx h0 =>
    hdef x hx (Basin.definite B hw x h0)) 1 one_pos
  exact ⟨top, ht, fun dt h0 h1 old ho new hs => C128_waves B N dt old new ho h0 (h dt h0 h1) hs⟩

end Waves

/-! ### Inertial motion -/

theorem turn_energy : HasEnergy turn ⊤ id where
  maps _ _ := trivial
  energy := by
    refine ⟨⟨fun y => ⟨fun a b => ?_, fun a b => ?_⟩, fun x => ⟨fun a b => ?_, fun a b => ?_⟩⟩, fun x y => ?_, fun x => ?_⟩ <;>
      simp only [turn, id, Prod.fst_add, Prod.snd_add, Prod.smul_fst, Prod.smul_snd, smul_eq_mul]
    · ring
    · ring
    · ring
    · ring
    · ring
    · nlinarith [sq_nonneg x.1, sq_nonneg x.2]
  inner _ _ := rfl

theorem turn_linear : LinearEqn turn id := by
  refine ⟨fun y => ⟨fun a b => ?_, fun a b => ?_⟩, fun x => ⟨fun a b => ?_, fun a b => ?_⟩⟩ <;>
    simp only [turn, id, Prod.fst_add, Prod.snd_add, Prod.smul_fst, Prod.smul_snd, smul_eq_mul] <;> ring

theorem turn_tend {dt : ℝ} {x k : ℝ × ℝ} (h : Tend turn dt ⊤ id x k) : k = (dt * x.2, -(dt * x.1)) := by
  have h1 := h.2 (1, 0) trivial
  have h2 := h.2 (0, 1) trivial
  simp only [turn, id, mul_one, mul_zero, add_zero, zero_add, sub_zero, zero_sub] at h1 h2
  exact Prod.ext h1 (by rw [h2]; simp)

theorem turn_cubic {dt c : ℝ} {old new : ℝ × ℝ} (h : Cubic turn dt ⊤ id c old new) :
    turn.mass new new = (1 + (1 / 4 - 2 * c) * dt ^ 4 + c ^ 2 * dt ^ 6) * turn.mass old old := by
  obtain ⟨w1, w2, w3, h1, h2, h3, rfl⟩ := h
  rw [turn_tend h3, turn_tend h2, turn_tend h1]
  simp only [turn, Prod.fst_add, Prod.snd_add, Prod.smul_fst, Prod.smul_snd, smul_eq_mul]
  ring

theorem turn_square {dt : ℝ} {old new : ℝ × ℝ} (h : Square turn dt ⊤ id old new) :
    turn.mass new new = (1 + 1 / 4 * dt ^ 4) * turn.mass old old := by
  obtain ⟨w1, w2, h1, h2, rfl⟩ := h
  rw [turn_tend h2, turn_tend h1]
  simp only [turn, Prod.fst_add, Prod.snd_add, Prod.smul_fst, Prod.smul_snd, smul_eq_mul]
  ring

theorem turn_pos {x : ℝ × ℝ} (h : x ≠ 0) : 0 < turn.mass x x := by
  obtain ⟨a, b⟩ := x
  simp only [turn]
  by_contra hn
  have h1 : a = 0 := by nlinarith [sq_nonneg a, sq_nonneg b]
  have h2 : b = 0 := by nlinarith [sq_nonneg a, sq_nonneg b]
  exact h (by rw [h1, h2]; rfl)

/-- C128: for inertial motion `SSPRK33` creates energy exactly if the time step exceeds the square root of three. -/
theorem C128_turn_ssprk33 (dt : ℝ) (old new : ℝ × ℝ) (h0 : old ≠ 0) (hdt : 0 < dt) (h : Ssprk33Step turn dt ⊤ old new) :
    turn.mass old old < turn.mass new new ↔ 3 < dt ^ 2 := by
  rw [turn_cubic (ssprk33_cubic turn_energy turn_linear h)]
  have p := turn_pos h0
  have q : 0 < dt ^ 4 := by positivity
  rw [lt_mul_iff_one_lt_left p]
  constructor <;> intro k <;> nlinarith [sq_nonneg (dt ^ 2)]

/-- C128: and `ERKLSPUM2` exactly if it exceeds 6/5. -/
theorem C128_turn_lspum2 (dt : ℝ) (old new : ℝ × ℝ) (h0 : old ≠ 0) (hdt : 0 < dt)
    (h : ButcherStep turn RK.erkLSPUM2 dt ⊤ old new) : turn.mass old old < turn.mass new new ↔ 6 / 5 < dt := by
  rw [turn_cubic (lspum2_cubic turn_energy turn_linear h)]
  have p := turn_pos h0
  have q : 0 < dt ^ 4 := by positivity
  rw [lt_mul_iff_one_lt_left p]
  have e : 1 + (1 / 4 - 2 * (5 / 36)) * dt ^ 4 + (5 / 36) ^ 2 * dt ^ 6 = 1 + 25 / 1296 * dt ^ 4 * (dt ^ 2 - 36 / 25) := by ring
  rw [e]
  constructor
  · intro k
    by_contra hn
    have : dt ^ 2 - 36 / 25 ≤ 0 := by nlinarith
    nlinarith
  · intro k
    have : 0 < dt ^ 2 - 36 / 25 := by nlinarith
    have := mul_pos q this
    linarith

/-- C128: the other explicit schemes create energy with every time step. -/
theorem C128_turn_violated (dt : ℝ) (old new : ℝ × ℝ) (h0 : old ≠ 0) (hdt : 0 < dt)
    (h : EulerStep turn dt ⊤ old new ∨ ButcherStep turn RK.erkMidpoint dt ⊤ old new ∨ TwoStageStep turn dt ⊤ old new ∨
      ButcherStep turn RK.erkLPUM2 dt ⊤ old new) : turn.mass old old < turn.mass new new := by
  have p := turn_pos h0
  have q : 0 < dt ^ 4 := by positivity
  rcases h with h | h | h | h
  · have e := EulerStep.tend turn ⊤ id dt old new turn_energy trivial h
    have e' : new = old + (dt * old.2, -(dt * old.1)) := by rw [← turn_tend e]; abel
    rw [e']
    have : turn.mass (old + (dt * old.2, -(dt * old.1))) (old + (dt * old.2, -(dt * old.1))) =
        (1 + dt ^ 2) * turn.mass old old := by
      simp only [turn, Prod.fst_add, Prod.snd_add]; ring
    rw [this]
    nlinarith [mul_pos (pow_pos hdt 2) p]
  · rw [turn_square (midpoint_square turn_energy turn_linear h)]
    nlinarith [mul_pos q p]
  · rw [turn_square (twoStage_square turn_energy turn_linear trivial h)]
    nlinarith [mul_pos q p]
  · rw [turn_cubic (lpum2_cubic turn_energy turn_linear h)]
    nlinarith [mul_pos q p, mul_pos (pow_pos hdt 6) p]

/-! ### Examples -/

/-- The hypotheses of `C128_turn_violated` hold: three steps of length one, from the same velocity. -/
example : EulerStep turn 1 ⊤ (1, 0) (1, -1) ∧ ButcherStep turn RK.erkMidpoint 1 ⊤ (1, 0) (1 / 2, -1) ∧
    TwoStageStep turn 1 ⊤ (1, 0) (1 / 2, -1) := by
  refine ⟨⟨trivial, fun w _ => ?_⟩, ⟨fun i => if i = 0 then (0, -1) else (-1 / 2, -1), fun i hi => ?_, ?_⟩, trivial, (1, -1),
    trivial, fun w _ => ?_, fun w _ => ?_⟩
  · simp [turn]
  · have hi : i < 2 := hi
    refine ⟨trivial, fun w _ => ?_⟩
    interval_cases i <;> norm_num [stage, turn, RK.erkMidpoint, RK.mk, RK.vec] <;> linarith
  · have hn : RK.erkMidpoint.n = 2 := rfl
    rw [hn]
    norm_num [sum_range_succ, RK.erkMidpoint, RK.mk, RK.vec]
  · simp [turn]
  · simp [turn]; ring

/-- The hypotheses of `C128_ssprk33` hold: inertial motion with a time step of at most one. -/
example (dt : ℝ) (hdt : 0 ≤ dt) (h1 : dt ≤ 1) (old new : ℝ × ℝ) (h : Ssprk33Step turn dt ⊤ old new) :
    turn.mass new new ≤ turn.mass old old :=
  C128_ssprk33 turn ⊤ id dt old new turn_energy turn_linear (fun x _ => by simp [turn, mul_comm]) trivial hdt
    (fun x _ k hk h => by
      rw [turn_tend ⟨hk, h⟩]
      simp only [turn, id]
      nlinarith [mul_nonneg (by nlinarith : (0 : ℝ) ≤ 1 - dt ^ 2) (add_nonneg (sq_nonneg x.1) (sq_nonneg x.2))]) h

/-- One such step of length one. -/
example : Ssprk33Step turn 1 ⊤ (1, 0) (1 / 2, -5 / 6) := by
  refine ⟨_, RK.ssprk33_conv, fun i => [(1, 0), (1, -1), (3 / 4, -1 / 2), (1 / 2, -5 / 6)].getD i 0,
    fun i => [(0, -1), (-1, -1), (-1 / 2, -3 / 4)].getD i 0, rfl, fun i hi => ⟨⟨trivial, fun w _ => ?_⟩, ?_⟩, rfl⟩
  · have hi : i < 3 := hi
    interval_cases i <;> norm_num [turn] <;> ring
  · have hn : RK.ssprk33.n = 3 := rfl
    have hi : i < 3 := hi
    interval_cases i <;>
      simp only [sum_range_succ, sum_range_zero, RK.Tableau.alpha, RK.Tableau.beta, RK.ssprk33_at0_al, RK.ssprk33_at0_be] <;>
      norm_num [hn]

/-- Waves with rotation and linear drag. -/
noncomputable def calm : Swe.Coeffs square := { Swe.noCoeffs with coriolis := some (cst square 1), linear := some (cst square 2) }

theorem calm_basin : Basin Swe.exTerm calm (fun _ => none) (Submodule.pi Set.univ fun _ => linears) linears 10 :=
  { exBasin with
    free := ⟨rfl, rfl, rfl, rfl, rfl⟩
    drag := fun cd h x => by cases h
    lindrag := fun c h x => by cases h; simp
    farms := fun F h => by cases h
    visc := fun u _ eta old => le_of_eq rfl }

/-- Their energy does not grow with a short time step. -/
example : ∃ top > 0, ∀ dt, 0 ≤ dt → dt ≤ top → ∀ old ∈ (Submodule.pi Set.univ fun _ => linears).prod linears, ∀ new,
    Ssprk33Step (swe Swe.exTerm calm fun _ => none) dt ((Submodule.pi Set.univ fun _ => linears).prod linears) old new →
      waveEnergy 10 10 new ≤ waveEnergy 10 10 old :=
  C128_waves_exists calm_basin ⟨rfl, rfl, fun _ => rfl⟩ linears_pair fun c => show (0 : ℝ) < 1 / 6 by norm_num

instance : FiniteDimensional ℝ linears := by
  let f : linears →ₗ[ℝ] (SqC → ℝ) :=
    { toFun := fun x c => (x.1 (.cell c)).v
      map_add' := fun _ _ => rfl
      map_smul' := fun _ _ => rfl }
  refine FiniteDimensional.of_injective f ?_
  rw [← LinearMap.ker_eq_bot, LinearMap.ker_eq_bot']
  intro x hx
  exact Subtype.ext (linears_ext x x.2 fun c => congrFun hx c)

/-- A tracer on the square: with a short time step its square does not grow. -/
example : ∃ top > 0, ∀ dt, 0 ≤ dt → dt ≤ top → ∀ old ∈ linears, ∀ new,
    Ssprk33Step (tracer2 Tracer2.exTerm { Tracer2.exFlow with uv := some fun _ => cst square 0 }
      (some (squareField ⟨1, 0, 0, 0, 0, 0⟩ ⟨5, 0, 0, 0, 0, 0⟩)) fun _ => none) dt linears old new →
      (square.dx fun x => (new (.cell x)).v ^ 2) ≤ square.dx fun x => (old (.cell x)).v ^ 2 :=
  C128_tracer_exists exCarried linears_ext fun c => show (0 : ℝ) < 1 / 6 by norm_num

end Verif.Explicit
