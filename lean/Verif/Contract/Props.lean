import Verif.Contract.Lemmas
import Mathlib.Algebra.BigOperators.Field

/-!
C127: implicit steps of any length do not create energy.
-/

namespace Verif.Contract

open Finset Verif.Dg

variable {V : Type*} [AddCommGroup V] [Module ℝ V]

/-- `e x y = mass(x, W y)` is an energy, where `W` turns a function into the test function it is multiplied with (the weights of
its components), and tendencies have the same mass form. -/
structure HasEnergy (E : Eqn V) (H : Submodule ℝ V) (W : V → V) : Prop where
  maps : ∀ x ∈ H, W x ∈ H
  energy : IsEnergy fun x y => E.mass x (W y)
  inner : ∀ x y, E.inner x (W y) = E.mass x (W y)

/-- Nothing in the equation, with coefficients from `v`, adds energy. -/
def Passive (E : Eqn V) (H : Submodule ℝ V) (W : V → V) (v : V) : Prop := ∀ x ∈ H, E.res x v (W x) ≤ 0

/-- The equation, with coefficients from `v`, is linear. -/
def Linear (E : Eqn V) (W : V → V) (v : V) : Prop := Bilin fun x y => E.res x v (W y)

/-- The coefficients do not change within a step: they are taken from the old solution, or do not depend on the solution. -/
def Fixed (E : Eqn V) (semi : Bool) : Prop := semi = true ∨ ∀ u v v' w, E.res u v w = E.res u v' w

omit [AddCommGroup V] [Module ℝ V] in
theorem Fixed.eq {E : Eqn V} {semi : Bool} (h : Fixed E semi) (u v old w : V) :
    E.res u (if semi then old else v) w = E.res u old w := by
  rcases h with h | h
  · rw [if_pos h]
  · exact h _ _ _ _

/-! ### Theta method -/

/-- C127: the energy budget of a step of `CrankNicolson`. -/
theorem C127_theta_budget (E : Eqn V) (H : Submodule ℝ V) (W : V → V) (dt theta : ℝ) (semi : Bool) (old new : V)
    (hE : HasEnergy E H W) (hl : Linear E W old) (hf : Fixed E semi) (ho : old ∈ H)
    (h : ThetaStep E E dt theta semi H old new) :
    E.mass new (W new) = E.mass old (W old) +
      2 * dt * E.res (theta • new + (1 - theta) • old) old (W (theta • new + (1 - theta) • old)) -
      (2 * theta - 1) * E.mass (new - old) (W (new - old)) := by
  have hr : Bilin fun x y => dt * E.res x old (W y) :=
    ⟨fun y => (hl.1 y).left dt, fun x => (hl.2 x).left dt⟩
  have := theta_core hE.energy hr theta old new fun w hw => by
    have hw' : w ∈ H := hw ▸ H.add_mem (H.smul_mem _ h.1) (H.smul_mem _ ho)
    have := h.2 (W w) (hE.maps w hw')
    rw [hf.eq] at this
    linear_combination this
  linear_combination this

/-- C127: a step of `CrankNicolson` with `implicitness_theta` of one half or more does not create energy, for any time step. -/
theorem C127_theta (E : Eqn V) (H : Submodule ℝ V) (W : V → V) (dt theta : ℝ) (semi : Bool) (old new : V)
    (hE : HasEnergy E H W) (hl : Linear E W old) (hf : Fixed E semi) (hp : Passive E H W old) (ho : old ∈ H)
    (hdt : 0 ≤ dt) (ht : 1 / 2 ≤ theta) (h : ThetaStep E E dt theta semi H old new) :
    E.mass new (W new) ≤ E.mass old (W old) := by
  rw [C127_theta_budget E H W dt theta semi old new hE hl hf ho h]
  have h1 := hp _ (H.add_mem (H.smul_mem theta h.1) (H.smul_mem (1 - theta) ho))
  have h2 := hE.energy.nonneg (new - old)
  nlinarith [mul_nonneg hdt (neg_nonneg.2 h1), mul_nonneg (by linarith : (0 : ℝ) ≤ 2 * theta - 1) h2]

/-- C127: if the equation keeps energy, so does a step with one half, exactly. -/
theorem C127_half (E : Eqn V) (H : Submodule ℝ V) (W : V → V) (dt : ℝ) (semi : Bool) (old new : V)
    (hE : HasEnergy E H W) (hl : Linear E W old) (hf : Fixed E semi) (hp : ∀ x ∈ H, E.res x old (W x) = 0) (ho : old ∈ H)
    (h : ThetaStep E E dt (1 / 2) semi H old new) :
    E.mass new (W new) = E.mass old (W old) := by
  rw [C127_theta_budget E H W dt (1 / 2) semi old new hE hl hf ho h,
    hp _ (H.add_mem (H.smul_mem _ h.1) (H.smul_mem _ ho))]
  ring

/-! ### Runge-Kutta methods -/

/-- The matrix `b_i a_ij + b_j a_ji - b_i b_j` is a sum of squares, and no weight is negative. -/
def AlgStable (T : RK.Tableau) : Prop :=
  (∀ i < T.n, 0 ≤ T.b i) ∧ ∃ (p : ℕ) (l : ℕ → ℕ → ℝ), ∀ i < T.n, ∀ j < T.n,
    T.b i * T.a i j + T.b j * T.a j i - T.b i * T.b j = ∑ q ∈ range p, l q i * l q j

/-- A symmetric sum. -/
theorem sum_swap (n : ℕ) (f : ℕ → ℕ → ℝ) :
    ∑ i ∈ range n, ∑ j ∈ range n, f i j = ∑ i ∈ range n, ∑ j ∈ range n, (f i j + f j i) / 2 := by
  have h : ∑ i ∈ range n, ∑ j ∈ range n, f i j = ∑ i ∈ range n, ∑ j ∈ range n, f j i := sum_comm
  have h2 : ∑ i ∈ range n, ∑ j ∈ range n, (f i j + f j i) / 2 =
      (∑ i ∈ range n, ∑ j ∈ range n, f i j + ∑ i ∈ range n, ∑ j ∈ range n, f j i) / 2 := by
    rw [← sum_add_distrib, sum_div]
    refine sum_congr rfl fun i _ => ?_
    rw [← sum_add_distrib, sum_div]
  rw [h2, ← h]; ring

/-- C127: one step of `DIRKGeneric` with an algebraically stable tableau, for equations that may be nonlinear and change from stage
to stage, as long as none of them adds energy. -/
theorem C127_algebraic (E : ℕ → Eqn V) (H : Submodule ℝ V) (W : V → V) (T : RK.Tableau) (dt : ℝ) (semi : Bool) (old new : V)
    (e : V → V → ℝ) (hm : ∀ i x y, (E i).mass x (W y) = e x y) (hE : ∀ i, HasEnergy (E i) H W)
    (hp : ∀ i v, Passive (E i) H W v) (ho : old ∈ H) (hdt : 0 ≤ dt)
    (hT : T.Accepted) (hs : AlgStable T) (h : TendencyStep E T dt semi H old new) :
    e new new ≤ e old old := by
  obtain ⟨k, hk, rfl⟩ := h
  obtain ⟨hb, p, l, hM⟩ := hs
  have he : IsEnergy e := by
    have := (hE 0).energy
    simpa only [hm] using this
  have hU : ∀ i < T.n, stageValue T dt old k i = old + ∑ j ∈ range T.n, (T.a i j * dt) • k j := fun i hi => by
    unfold stageValue
    congr 1
    refine sum_subset (range_subset_range.2 hi) fun j hj hji => ?_
    rw [mem_range] at hj hji
    rw [hT.1 i hi j hj (by omega), zero_mul, zero_smul]
  have hUH : ∀ i < T.n, stageValue T dt old k i ∈ H := fun i hi => by
    rw [hU i hi]
    exact H.add_mem ho (H.sum_mem fun j hj => H.smul_mem _ (hk j (mem_range.1 hj)).1)
  -- the power of each stage
  have hpow : ∀ i < T.n, e (k i) (stageValue T dt old k i) ≤ 0 := fun i hi => by
    have h1 := (hk i hi).2 _ ((hE i).maps _ (hUH i hi))
    have h2 := hp i (stageLin T dt semi old k i) _ (hUH i hi)
    rw [(hE i).inner, hm] at h1
    linarith
  have hexp : ∀ i < T.n, e (k i) (stageValue T dt old k i) =
      e old (k i) + ∑ j ∈ range T.n, dt * (T.a i j * e (k i) (k j)) := fun i hi => by
    rw [hU i hi, he.lin.add_right, he.lin.sum_right, he.symm (k i) old]
    congr 1
    refine sum_congr rfl fun j _ => ?_
    rw [he.lin.smul_right]; ring
  have hfin : e (old + ∑ j ∈ range T.n, (dt * T.b j) • k j) (old + ∑ j ∈ range T.n, (dt * T.b j) • k j) =
      e old old + 2 * ∑ i ∈ range T.n, dt * T.b i * e old (k i) +
        ∑ i ∈ range T.n, ∑ j ∈ range T.n, dt ^ 2 * (T.b i * T.b j) * e (k i) (k j) := by
    rw [he.lin.add_left, he.lin.add_right, he.lin.add_right, he.symm (∑ j ∈ range T.n, (dt * T.b j) • k j) old]
    have h1 : e old (∑ j ∈ range T.n, (dt * T.b j) • k j) = ∑ i ∈ range T.n, dt * T.b i * e old (k i) := by
      rw [he.lin.sum_right]
      exact sum_congr rfl fun j _ => he.lin.smul_right _ _ _
    have h2 : e (∑ j ∈ range T.n, (dt * T.b j) • k j) (∑ j ∈ range T.n, (dt * T.b j) • k j) =
        ∑ i ∈ range T.n, ∑ j ∈ range T.n, dt ^ 2 * (T.b i * T.b j) * e (k i) (k j) := by
      rw [he.lin.sum_left]
      refine sum_congr rfl fun i _ => ?_
      rw [he.lin.sum_right]
      refine sum_congr rfl fun j _ => ?_
      rw [he.lin.smul_left, he.lin.smul_right]; ring
    rw [h1, h2]; ring
  have hsum : ∑ i ∈ range T.n, dt * T.b i * e old (k i) =
      ∑ i ∈ range T.n, dt * T.b i * e (k i) (stageValue T dt old k i) -
        ∑ i ∈ range T.n, ∑ j ∈ range T.n, dt ^ 2 * (T.b i * T.a i j) * e (k i) (k j) := by
    rw [← sum_sub_distrib]
    refine sum_congr rfl fun i hi => ?_
    rw [hexp i (mem_range.1 hi), mul_add, mul_sum]
    have : ∀ j, dt * T.b i * (dt * (T.a i j * e (k i) (k j))) = dt ^ 2 * (T.b i * T.a i j) * e (k i) (k j) :=
      fun j => by ring
    simp only [this]; ring
  have hneg : ∑ i ∈ range T.n, dt * T.b i * e (k i) (stageValue T dt old k i) ≤ 0 :=
    sum_nonpos fun i hi => mul_nonpos_of_nonneg_of_nonpos (mul_nonneg hdt (hb i (mem_range.1 hi))) (hpow i (mem_range.1 hi))
  have hquad : 0 ≤ 2 * (∑ i ∈ range T.n, ∑ j ∈ range T.n, dt ^ 2 * (T.b i * T.a i j) * e (k i) (k j)) -
      ∑ i ∈ range T.n, ∑ j ∈ range T.n, dt ^ 2 * (T.b i * T.b j) * e (k i) (k j) := by
    have h1 : 2 * (∑ i ∈ range T.n, ∑ j ∈ range T.n, dt ^ 2 * (T.b i * T.a i j) * e (k i) (k j)) -
        ∑ i ∈ range T.n, ∑ j ∈ range T.n, dt ^ 2 * (T.b i * T.b j) * e (k i) (k j) =
        ∑ q ∈ range p, dt ^ 2 * e (∑ i ∈ range T.n, l q i • k i) (∑ i ∈ range T.n, l q i • k i) := by
      rw [sum_swap T.n fun i j => dt ^ 2 * (T.b i * T.a i j) * e (k i) (k j), mul_sum, ← sum_sub_distrib]
      have h3 : ∀ q, dt ^ 2 * e (∑ i ∈ range T.n, l q i • k i) (∑ i ∈ range T.n, l q i • k i) =
          ∑ i ∈ range T.n, ∑ j ∈ range T.n, dt ^ 2 * (l q i * l q j) * e (k i) (k j) := fun q => by
        rw [he.lin.sum_left, mul_sum]
        refine sum_congr rfl fun i _ => ?_
        rw [he.lin.sum_right, mul_sum]
        refine sum_congr rfl fun j _ => ?_
        rw [he.lin.smul_left, he.lin.smul_right]; ring
      simp only [h3]
      rw [sum_comm (s := range p)]
      refine sum_congr rfl fun i hi => ?_
      rw [sum_comm (s := range p), mul_sum, ← sum_sub_distrib]
      refine sum_congr rfl fun j hj => ?_
      have h4 := hM i (mem_range.1 hi) j (mem_range.1 hj)
      rw [he.symm (k j) (k i)]
      have h5 : ∑ q ∈ range p, dt ^ 2 * (l q i * l q j) * e (k i) (k j) =
          (∑ q ∈ range p, l q i * l q j) * (dt ^ 2 * e (k i) (k j)) := by
        rw [sum_mul]
        exact sum_congr rfl fun q _ => by ring
      rw [h5, ← h4]; ring
    rw [h1]
    exact sum_nonneg fun q _ => mul_nonneg (sq_nonneg _) (he.nonneg _)
  rw [hfin, hsum]
  linarith

/-- Backward Euler, the implicit midpoint rule (in both forms) and `DIRK23` are algebraically stable. -/
theorem algStable_backwardEuler : AlgStable RK.backwardEuler := by
  refine ⟨fun i hi => ?_, 1, fun _ _ => 1, fun i hi j hj => ?_⟩ <;> simp only [RK.backwardEuler, RK.mk, List.length_singleton] at *
  · interval_cases i; norm_num [RK.vec]
  · interval_cases i; interval_cases j; norm_num [RK.vec]

theorem algStable_implicitMidpoint : AlgStable RK.implicitMidpoint := by
  refine ⟨fun i hi => ?_, 0, fun _ _ => 0, fun i hi j hj => ?_⟩ <;>
    simp only [RK.implicitMidpoint, RK.mk, List.length_singleton] at *
  · interval_cases i; norm_num [RK.vec]
  · interval_cases i; interval_cases j; norm_num [RK.vec]

theorem algStable_esdirkMidpoint : AlgStable RK.esdirkMidpoint := by
  refine ⟨fun i hi => ?_, 0, fun _ _ => 0, fun i hi j hj => ?_⟩ <;>
    simp only [RK.esdirkMidpoint, RK.mk, List.length_cons, List.length_nil] at *
  · interval_cases i <;> norm_num [RK.vec]
  · interval_cases i <;> interval_cases j <;> norm_num [RK.vec]

theorem algStable_dirk23 : AlgStable RK.dirk23 := by
  have hg : 0 ≤ RK.γ23 - 1 / 4 := by
    have := Real.sqrt_nonneg 3
    unfold RK.γ23; linarith
  have hs := Real.mul_self_sqrt hg
  refine ⟨fun i hi => ?_, 1, fun _ i => if i = 0 then Real.sqrt (RK.γ23 - 1 / 4) else -Real.sqrt (RK.γ23 - 1 / 4),
    fun i hi j hj => ?_⟩ <;> simp only [RK.dirk23, RK.mk, List.length_cons, List.length_nil] at *
  · interval_cases i <;> norm_num [RK.vec]
  · interval_cases i <;> interval_cases j <;> simp only [RK.vec, List.getD_cons_zero, List.getD_cons_succ, sum_range_one,
      if_true, one_ne_zero, if_false, neg_mul, mul_neg, neg_neg, hs] <;> ring

/-- C127: a step of `BackwardEuler` in the form of rungekutta.py:750, for equations that may be nonlinear. -/
theorem C127_backward (E : ℕ → Eqn V) (H : Submodule ℝ V) (W : V → V) (dt : ℝ) (semi : Bool) (old new : V)
    (hE : HasEnergy (E 0) H W) (hp : ∀ v ∈ H, Passive (E 0) H W v) (ho : old ∈ H) (hdt : 0 ≤ dt)
    (h : UStep E RK.backwardEuler dt semi H old new) :
    (E 0).mass new (W new) ≤ (E 0).mass old (W old) := by
  obtain ⟨u, k, hu, -, rfl⟩ := h
  obtain ⟨hu0, h0⟩ := hu 0 (by norm_num [RK.backwardEuler, RK.mk])
  have h1 := h0 _ (hE.maps _ hu0)
  have hn : RK.backwardEuler.n - 1 = 0 := by simp [RK.backwardEuler, RK.mk]
  have ha : RK.backwardEuler.a 0 0 = 1 := by simp [RK.backwardEuler, RK.mk]
  rw [hn]
  rw [ha, sum_range_zero] at h1
  have h2 : (E 0).res (u 0) (if semi then old else u 0) (W (u 0)) ≤ 0 := hp _ (by split <;> assumption) _ hu0
  have he := hE.energy
  have h3 := he.nonneg (u 0 - old)
  have h4 : (E 0).mass (u 0 - old) (W (u 0 - old)) =
      (E 0).mass (u 0) (W (u 0)) - 2 * (E 0).mass old (W (u 0)) + (E 0).mass old (W old) := by
    rw [he.lin.sub_left, he.lin.sub_right, he.lin.sub_right, he.symm (u 0) old]; ring
  nlinarith [mul_nonneg hdt (neg_nonneg.2 h2)]

/-- The stages of `DIRK22`: the estimate for both of its forms. -/
theorem dirk22_step (E : Eqn V) (H : Submodule ℝ V) (W : V → V) (dt : ℝ) (O A B v : V)
    (hE : HasEnergy E H W) (hl : Linear E W v) (hp : Passive E H W v) (hO : O ∈ H) (hA : A ∈ H) (hB : B ∈ H) (hdt : 0 ≤ dt)
    (h1 : ∀ w ∈ H, E.mass A (W w) - E.mass O (W w) = dt * RK.γ22 * E.res A v (W w))
    (h2 : ∀ w ∈ H, E.mass B (W w) - E.mass O (W w) =
      dt * (1 - RK.γ22) * E.res A v (W w) + dt * RK.γ22 * E.res B v (W w)) :
    E.mass B (W B) ≤ E.mass O (W O) := by
  obtain ⟨g0, g1⟩ := g22_bounds
  have hg := g22_eq
  set g := RK.γ22 with hgdef
  have hg0 : g ≠ 0 := g0.ne'
  have hg1 : 1 - g ≠ 0 := by linarith
  have he := hE.energy
  have hr : Bilin fun x y => dt * E.res x v (W y) :=
    ⟨fun y => (hl.1 y).left dt, fun x => (hl.2 x).left dt⟩
  -- the tendencies times the time step
  obtain ⟨K1, hK1⟩ : ∃ x, x = (1 / g) • (A - O) := ⟨_, rfl⟩
  obtain ⟨K2, hK2⟩ : ∃ x, x = (1 / g) • (B - O - (1 - g) • K1) := ⟨_, rfl⟩
  have hK1m : ∀ w ∈ H, E.mass K1 (W w) = dt * E.res A v (W w) := fun w hw => by
    rw [hK1, he.lin.smul_left, he.lin.sub_left, h1 w hw]; field_simp
  have hK2m : ∀ w ∈ H, E.mass K2 (W w) = dt * E.res B v (W w) := fun w hw => by
    rw [hK2, he.lin.smul_left, he.lin.sub_left, he.lin.sub_left, he.lin.smul_left, hK1m w hw, h2 w hw]; field_simp; ring
  have hK1H : K1 ∈ H := hK1 ▸ H.smul_mem _ (H.sub_mem hA hO)
  have hK2H : K2 ∈ H := hK2 ▸ H.smul_mem _ (H.sub_mem (H.sub_mem hB hO) (H.smul_mem _ hK1H))
  have hO' : O = A - g • K1 := by
    rw [hK1, smul_smul, mul_one_div_cancel hg0, one_smul]; abel
  have hB' : B = O + (1 - g) • K1 + g • K2 := by
    have : g • K2 = B - O - (1 - g) • K1 := by rw [hK2, smul_smul, mul_one_div_cancel hg0, one_smul]
    rw [this]; abel
  obtain ⟨a, ha⟩ : ∃ x, x = ((1 - 2 * g) / (1 - g)) • A + (g / (1 - g)) • B := ⟨_, rfl⟩
  obtain ⟨b, hb⟩ : ∃ x, x = (1 / (1 - g)) • (B - A) := ⟨_, rfl⟩
  obtain ⟨c, hc⟩ : ∃ x, x = (1 / (1 - g)) • (K2 - K1) := ⟨_, rfl⟩
  have haH : a ∈ H := ha ▸ H.add_mem (H.smul_mem _ hA) (H.smul_mem _ hB)
  have hbH : b ∈ H := hb ▸ H.smul_mem _ (H.sub_mem hB hA)
  have hcH : c ∈ H := hc ▸ H.smul_mem _ (H.sub_mem hK2H hK1H)
  have hbK : b = ((1 - 2 * g) / (1 - g)) • K1 + (g / (1 - g)) • K2 := by
    rw [hb, hB', hO']
    module
  have key := dirk22_core he hr g hg a b c
    (fun w hw => by
      have hw' : w ∈ H := by rcases hw with rfl | rfl | rfl <;> assumption
      rw [hbK, he.lin.add_left, he.lin.smul_left, he.lin.smul_left, hK1m w hw', hK2m w hw', ha, hl.add_left, hl.smul_left,
        hl.smul_left]
      ring)
    (fun w hw => by
      have hw' : w ∈ H := by rcases hw with rfl | rfl | rfl <;> assumption
      rw [hc, he.lin.smul_left, he.lin.sub_left, hK1m w hw', hK2m w hw', hb, hl.smul_left, hl.sub_left]
      ring)
  have hB'' : a + (1 - 2 * g) • b = B := by
    rw [ha, hb, smul_smul, smul_sub]
    have e1 : (1 - 2 * g) / (1 - g) = (1 - 2 * g) * (1 / (1 - g)) := by ring
    have e2 : g / (1 - g) + (1 - 2 * g) * (1 / (1 - g)) = 1 := by field_simp; ring
    calc _ = ((1 - 2 * g) / (1 - g) - (1 - 2 * g) * (1 / (1 - g))) • A +
          (g / (1 - g) + (1 - 2 * g) * (1 / (1 - g))) • B := by module
      _ = B := by rw [e1, e2, sub_self, zero_smul, zero_add, one_smul]
  have hA' : A = a - g • b := by
    have e1 : (1 - 2 * g) / (1 - g) + g * (1 / (1 - g)) = 1 := by field_simp; ring
    have e2 : g / (1 - g) - g * (1 / (1 - g)) = 0 := by ring
    calc A = ((1 - 2 * g) / (1 - g) + g * (1 / (1 - g))) • A + (g / (1 - g) - g * (1 / (1 - g))) • B := by
          rw [e1, e2, zero_smul, add_zero, one_smul]
      _ = a - g • b := by rw [ha, hb]; module
  have hK1' : K1 = b - g • c := by
    have e1 : (1 - 2 * g) / (1 - g) + g * (1 / (1 - g)) = 1 := by field_simp; ring
    have e2 : g / (1 - g) - g * (1 / (1 - g)) = 0 := by ring
    calc K1 = ((1 - 2 * g) / (1 - g) + g * (1 / (1 - g))) • K1 + (g / (1 - g) - g * (1 / (1 - g))) • K2 := by
          rw [e1, e2, zero_smul, add_zero, one_smul]
      _ = b - g • c := by rw [hbK, hc]; module
  have hO'' : a - (2 * g) • b + g ^ 2 • c = O := by
    rw [hO', hK1', hA']; module
  rw [hB'', hO''] at key
  have p1 := hp _ (H.sub_mem haH (H.smul_mem (g ^ 2) hbH))
  have p2 := hp _ hbH
  have p3 := he.nonneg c
  have q1 := mul_nonneg hdt (neg_nonneg.2 p1)
  have q2 := mul_nonneg (mul_nonneg (pow_nonneg g0.le 3) (by linarith : (0 : ℝ) ≤ 2 - g)) (mul_nonneg hdt (neg_nonneg.2 p2))
  have q3 := mul_nonneg (pow_nonneg g0.le 4) p3
  linarith

/-- C127: a step of `DIRK22` in the form of rungekutta.py:754 does not create energy, for any time step. -/
theorem C127_dirk22_uform (E : Eqn V) (H : Submodule ℝ V) (W : V → V) (dt : ℝ) (semi : Bool) (old new : V)
    (hE : HasEnergy E H W) (hl : Linear E W old) (hf : Fixed E semi) (hp : Passive E H W old) (ho : old ∈ H)
    (hdt : 0 ≤ dt) (h : UStep (fun _ => E) RK.dirk22 dt semi H old new) :
    E.mass new (W new) ≤ E.mass old (W old) := by
  obtain ⟨u, k, hu, hk, rfl⟩ := h
  have hn : RK.dirk22.n = 2 := rfl
  have a00 : RK.dirk22.a 0 0 = RK.γ22 := rfl
  have a10 : RK.dirk22.a 1 0 = 1 - RK.γ22 := rfl
  have a11 : RK.dirk22.a 1 1 = RK.γ22 := rfl
  rw [hn] at hu hk ⊢
  obtain ⟨hu0, e0⟩ := hu 0 (by norm_num)
  obtain ⟨hu1, e1⟩ := hu 1 (by norm_num)
  obtain ⟨hk0, f0⟩ := hk 0 (by norm_num)
  refine dirk22_step E H W dt old (u 0) (u 1) old hE hl hp ho hu0 hu1 hdt (fun w hw => ?_) fun w hw => ?_
  · have := e0 _ (hE.maps w hw)
    rw [hf.eq, a00, sum_range_zero] at this
    linarith
  · have h1 := e1 _ (hE.maps w hw)
    have h0 := e0 _ (hE.maps w hw)
    have h2 := f0 _ (hE.maps w hw)
    rw [hf.eq, a11, sum_range_one, a10] at h1
    rw [hf.eq, a00, sum_range_zero] at h0
    rw [a00, sum_range_zero] at h2
    have h3 : dt * (RK.γ22 * E.inner (k 0) (W w)) = dt * (RK.γ22 * E.res (u 0) old (W w)) := by linarith
    have h4 : dt * E.inner (k 0) (W w) = dt * E.res (u 0) old (W w) := by
      have hg0 : RK.γ22 ≠ 0 := g22_bounds.1.ne'
      refine mul_left_cancel₀ hg0 ?_
      linarith
    linear_combination h1 + (1 - RK.γ22) * h4

/-- C127: the same in the form of rungekutta.py:726. -/
theorem C127_dirk22_tendency (E : Eqn V) (H : Submodule ℝ V) (W : V → V) (dt : ℝ) (semi : Bool) (old new : V)
    (hE : HasEnergy E H W) (hl : Linear E W old) (hf : Fixed E semi) (hp : Passive E H W old) (ho : old ∈ H)
    (hdt : 0 ≤ dt) (h : TendencyStep (fun _ => E) RK.dirk22 dt semi H old new) :
    E.mass new (W new) ≤ E.mass old (W old) := by
  obtain ⟨k, hk, rfl⟩ := h
  have hn : RK.dirk22.n = 2 := rfl
  have a00 : RK.dirk22.a 0 0 = RK.γ22 := rfl
  have a10 : RK.dirk22.a 1 0 = 1 - RK.γ22 := rfl
  have a11 : RK.dirk22.a 1 1 = RK.γ22 := rfl
  have b0 : RK.dirk22.b 0 = 1 - RK.γ22 := rfl
  have b1 : RK.dirk22.b 1 = RK.γ22 := rfl
  rw [hn] at hk ⊢
  obtain ⟨hk0, e0⟩ := hk 0 (by norm_num)
  obtain ⟨hk1, e1⟩ := hk 1 (by norm_num)
  have hlin : ∀ i w u, E.res u (stageLin RK.dirk22 dt semi old k i) w = E.res u old w := fun i w u => hf.eq _ _ _ _
  simp only [hlin, stageValue, sum_range_succ, sum_range_zero, zero_add, a00, a10, a11] at e0 e1
  simp only [sum_range_succ, sum_range_zero, zero_add, b0, b1]
  have hA : old + (RK.γ22 * dt) • k 0 ∈ H := H.add_mem ho (H.smul_mem _ hk0)
  have hB : old + (((1 - RK.γ22) * dt) • k 0 + (RK.γ22 * dt) • k 1) ∈ H :=
    H.add_mem ho (H.add_mem (H.smul_mem _ hk0) (H.smul_mem _ hk1))
  rw [mul_comm dt (1 - RK.γ22), mul_comm dt RK.γ22]
  have he := hE.energy
  refine dirk22_step E H W dt old _ _ old hE hl hp ho hA hB hdt (fun w hw => ?_) fun w hw => ?_
  · have := e0 _ (hE.maps w hw)
    rw [hE.inner] at this
    rw [he.lin.add_left, he.lin.smul_left]
    linear_combination -(RK.γ22 * dt) * this
  · have h0 := e0 _ (hE.maps w hw)
    have h1 := e1 _ (hE.maps w hw)
    rw [hE.inner] at h0 h1
    rw [he.lin.add_left, he.lin.add_left, he.lin.smul_left, he.lin.smul_left]
    linear_combination -((1 - RK.γ22) * dt) * h0 - (RK.γ22 * dt) * h1

/-- C127: a step of the trapezoidal rule, rungekutta.py:722 and 975. -/
theorem C127_trapezoid (E : Eqn V) (H : Submodule ℝ V) (W : V → V) (T : RK.Tableau) (dt : ℝ) (semi : Bool) (old new : V)
    (hT : T = RK.crankNicolson ∨ T = RK.esdirkTrapezoid)
    (hE : HasEnergy E H W) (hl : Linear E W old) (hf : Fixed E semi) (hp : Passive E H W old) (ho : old ∈ H)
    (hdt : 0 ≤ dt) (h : TendencyStep (fun _ => E) T dt semi H old new) :
    E.mass new (W new) ≤ E.mass old (W old) := by
  have hT' : T = RK.esdirkTrapezoid := by rcases hT with h | h <;> exact h
  obtain ⟨k, hk, rfl⟩ := h
  have hn : T.n = 2 := by rw [hT']; rfl
  have a00 : T.a 0 0 = 0 := by rw [hT']; rfl
  have a10 : T.a 1 0 = 1 / 2 := by rw [hT']; rfl
  have a11 : T.a 1 1 = 1 / 2 := by rw [hT']; rfl
  have b0 : T.b 0 = 1 / 2 := by rw [hT']; rfl
  have b1 : T.b 1 = 1 / 2 := by rw [hT']; rfl
  rw [hn] at hk ⊢
  obtain ⟨hk0, e0⟩ := hk 0 (by norm_num)
  obtain ⟨hk1, e1⟩ := hk 1 (by norm_num)
  have hlin : ∀ i w u, E.res u (stageLin T dt semi old k i) w = E.res u old w := fun i w u => hf.eq _ _ _ _
  simp only [hlin, stageValue, sum_range_succ, sum_range_zero, zero_add, a00, a10, a11, zero_mul, zero_smul, add_zero] at e0 e1
  simp only [sum_range_succ, sum_range_zero, zero_add, b0, b1]
  rw [mul_comm dt (1 / 2)]
  have hB : old + ((1 / 2 * dt) • k 0 + (1 / 2 * dt) • k 1) ∈ H :=
    H.add_mem ho (H.add_mem (H.smul_mem _ hk0) (H.smul_mem _ hk1))
  set new := old + ((1 / 2 * dt) • k 0 + (1 / 2 * dt) • k 1) with hnew
  have he := hE.energy
  have hr : Bilin fun x y => dt * E.res x old (W y) :=
    ⟨fun y => (hl.1 y).left dt, fun x => (hl.2 x).left dt⟩
  have key := theta_core he hr (1 / 2) old new fun w hw => by
    have hw' : w ∈ H := hw ▸ H.add_mem (H.smul_mem _ hB) (H.smul_mem _ ho)
    have h0 := e0 _ (hE.maps w hw')
    have h1 := e1 _ (hE.maps w hw')
    rw [hE.inner] at h0 h1
    have h2 : E.mass new (W w) = E.mass old (W w) + (1 / 2 * dt * E.mass (k 0) (W w) + 1 / 2 * dt * E.mass (k 1) (W w)) := by
      rw [hnew, he.lin.add_left, he.lin.add_left, he.lin.smul_left, he.lin.smul_left]
    rw [h2]
    linear_combination -(1 / 2 * dt) * h0 - (1 / 2 * dt) * h1
  have hp1 := hp _ (H.add_mem (H.smul_mem (1 / 2 : ℝ) hB) (H.smul_mem (1 - 1 / 2 : ℝ) ho))
  nlinarith [mul_nonneg hdt (neg_nonneg.2 hp1)]

omit [AddCommGroup V] [Module ℝ V] in
/-- C127: over any number of steps. -/
theorem C127_run (e : V → ℝ) (u : ℕ → V) (h : ∀ n, e (u (n + 1)) ≤ e (u n)) (n : ℕ) : e (u n) ≤ e (u 0) := by
  induction n with
  | zero => exact le_refl _
  | succ n ih => exact (h n).trans ih

end Verif.Contract
