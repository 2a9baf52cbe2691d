import Verif.Accum.Model
import Verif.Linear.Props4
import Verif.Contract.Props
import Verif.Explicit.Props3
import Mathlib.Algebra.QuadraticDiscriminant

/-!
C148: errors do not grow.
-/

namespace Verif.Accum

open Finset Verif.Dg Verif.Contract Verif.Explicit Verif.Linear

variable {V : Type*} [AddCommGroup V] [Module ℝ V]

/-! ### The size of functions -/

section Size

variable {E : Eqn V} {W : V → V}

theorem size_sq (he : IsEnergy fun x y => E.mass x (W y)) (x : V) : size E W x ^ 2 = E.mass x (W x) :=
  Real.sq_sqrt (he.nonneg x)

omit [AddCommGroup V] [Module ℝ V] in
theorem size_nonneg (x : V) : 0 ≤ size E W x := Real.sqrt_nonneg _

theorem cauchy (he : IsEnergy fun x y => E.mass x (W y)) (x y : V) : |E.mass x (W y)| ≤ size E W x * size E W y := by
  have h := discrim_le_zero (a := E.mass y (W y)) (b := 2 * E.mass x (W y)) (c := E.mass x (W x)) fun t => by
    have h0 := he.nonneg (x + t • y)
    simp only [he.lin.add_left, he.lin.add_right, he.lin.smul_left, he.lin.smul_right] at h0
    have h1 : E.mass y (W x) = E.mass x (W y) := he.symm y x
    rw [h1] at h0
    linarith
  unfold discrim at h
  unfold size
  rw [← Real.sqrt_mul (he.nonneg x)]
  exact Real.abs_le_sqrt (by linarith)

theorem size_add_le (he : IsEnergy fun x y => E.mass x (W y)) (x y : V) : size E W (x + y) ≤ size E W x + size E W y := by
  have h1 := (abs_le.1 (cauchy he x y)).2
  have h2 : E.mass (x + y) (W (x + y)) = E.mass x (W x) + 2 * E.mass x (W y) + E.mass y (W y) := by
    have h3 : E.mass y (W x) = E.mass x (W y) := he.symm y x
    simp only [he.lin.add_left, he.lin.add_right]
    rw [h3]; ring
  refine Real.sqrt_le_iff.2 ⟨add_nonneg (size_nonneg x) (size_nonneg y), ?_⟩
  rw [h2, ← size_sq he x, ← size_sq he y]
  linarith

theorem size_smul (he : IsEnergy fun x y => E.mass x (W y)) (t : ℝ) (x : V) : size E W (t • x) = |t| * size E W x := by
  unfold size
  have : E.mass (t • x) (W (t • x)) = t ^ 2 * E.mass x (W x) := by
    simp only [he.lin.smul_left, he.lin.smul_right]; ring
  rw [this, Real.sqrt_mul (sq_nonneg t), Real.sqrt_sq_eq_abs]

theorem size_sub_ge (he : IsEnergy fun x y => E.mass x (W y)) (x y : V) :
    (size E W x - size E W y) ^ 2 ≤ E.mass (x - y) (W (x - y)) := by
  have h1 := (abs_le.1 (cauchy he x y)).2
  have h2 : E.mass (x - y) (W (x - y)) = E.mass x (W x) - 2 * E.mass x (W y) + E.mass y (W y) := by
    have h3 : E.mass y (W x) = E.mass x (W y) := he.symm y x
    simp only [he.lin.sub_left, he.lin.sub_right]
    rw [h3]; ring
  rw [h2, ← size_sq he x, ← size_sq he y]
  linarith

end Size

/-! ### Differences -/

/-- The difference of two solutions of `E` (with the fields of the new time; `Eo` has those of the old) solves `E0`, the
equation without forcing, which is linear and does not create energy. -/
structure Free (E Eo E0 : Eqn V) (H : Submodule ℝ V) (W : V → V) : Prop where
  super : Super 1 (-1) E E E0
  superOld : Super 1 (-1) Eo Eo E0
  energy : HasEnergy E0 H W
  linear : ∀ v, Linear E0 W v
  passive : ∀ v, Passive E0 H W v
  fixed : ∀ u v v' w, E0.res u v w = E0.res u v' w

theorem one_sub (x y : V) : (1 : ℝ) • x + (-1 : ℝ) • y = x - y := by module

theorem Super.sub_mass {E E' F : Eqn V} (S : Super 1 (-1) E E' F) (u u' w : V) :
    F.mass (u - u') w = E.mass u w - E'.mass u' w := by
  rw [← one_sub, S.mass]; ring

theorem Super.sub_res {E E' F : Eqn V} (S : Super 1 (-1) E E' F) (u u' v v' w : V) :
    F.res (u - u') (v - v') w = E.res u v w - E'.res u' v' w := by
  rw [← one_sub, ← one_sub, S.res]; ring

section Theta

variable {E Eo E0 : Eqn V} {H : Submodule ℝ V} {W : V → V} {dt theta tol : ℝ} {semi : Bool}

/-- C148: in a step of `CrankNicolson` (or backward Euler, `theta = 1`) of any length the distance to the exact solution
grows by the tolerance of the solver at most. -/
theorem C148_theta (F : Free E Eo E0 H W) (hdt : 0 ≤ dt) (ht : 1 / 2 ≤ theta) (ht1 : theta ≤ 1) (htol : 0 ≤ tol) {u u' v v' : V}
    (hu : u ∈ H) (hv : v ∈ H) (h : ThetaStep E Eo dt theta semi H u u') (h' : InexactTheta E Eo E0 W dt theta semi H tol v v') :
    size E0 W (v' - u') ≤ size E0 W (v - u) + tol := by
  have he := F.energy.energy
  set D1 := v' - u' with hD1
  set D0 := v - u with hD0
  have m1 : D1 ∈ H := H.sub_mem h'.1 h.1
  have m0 : D0 ∈ H := H.sub_mem hv hu
  set y := theta • D1 + (1 - theta) • D0 with hy
  have my : y ∈ H := H.add_mem (H.smul_mem _ m1) (H.smul_mem _ m0)
  have mw := F.energy.maps y my
  -- the equation for the difference, tested with `y`
  have e1 := (abs_le.1 (h'.2 y my)).2
  have e2 := h.2 (W y) mw
  have r1 : E0.res D1 D0 (W y) = E.res v' (if semi then v else v') (W y) - E.res u' (if semi then u else u') (W y) := by
    rw [F.fixed D1 D0 ((if semi then v else v') - if semi then u else u') (W y), hD1, Super.sub_res F.super]
  have r0 : E0.res D0 D0 (W y) = Eo.res v v (W y) - Eo.res u u (W y) := Super.sub_res F.superOld _ _ _ _ _
  have q1 : E0.mass D1 (W y) = E.mass v' (W y) - E.mass u' (W y) := Super.sub_mass F.super _ _ _
  have q0 : E0.mass D0 (W y) = E.mass v (W y) - E.mass u (W y) := Super.sub_mass F.super _ _ _
  have rl : E0.res y D0 (W y) = theta * E0.res D1 D0 (W y) + (1 - theta) * E0.res D0 D0 (W y) := by
    have := (F.linear D0).1 y
    change (fun x => E0.res x D0 (W y)) y = _
    rw [hy, this.1, this.2, this.2]
  have hp : E0.res y D0 (W y) ≤ 0 := F.passive D0 y my
  have k1 : E0.mass D1 (W y) - E0.mass D0 (W y) ≤ tol * size E0 W y := by
    have k2 := mul_nonneg hdt (neg_nonneg.2 hp)
    rw [rl, r1, r0] at k2
    rw [q1, q0]
    linarith
  -- the left side in terms of sizes
  set a1 := size E0 W D1 with ha1
  set a0 := size E0 W D0 with ha0
  have n1 : 0 ≤ a1 := size_nonneg _
  have n0 : 0 ≤ a0 := size_nonneg _
  have k3 : 2 * (E0.mass D1 (W y) - E0.mass D0 (W y)) =
      a1 ^ 2 - a0 ^ 2 + (2 * theta - 1) * E0.mass (D1 - D0) (W (D1 - D0)) := by
    have s : E0.mass D0 (W D1) = E0.mass D1 (W D0) := he.symm D0 D1
    rw [ha1, ha0, size_sq he, size_sq he, hy]
    simp only [he.lin.add_right, he.lin.smul_right, he.lin.sub_left, he.lin.sub_right]
    rw [s]; ring
  have k4 := size_sub_ge he D1 D0
  have k5 : size E0 W y ≤ theta * a1 + (1 - theta) * a0 := by
    refine (size_add_le he _ _).trans (le_of_eq ?_)
    rw [size_smul he, size_smul he, abs_of_nonneg (by linarith), abs_of_nonneg (by linarith)]
  have k6 : 0 ≤ size E0 W y := size_nonneg y
  by_contra hcon
  have hcon : a0 + tol < a1 := not_le.1 hcon
  have k7 : (a1 - a0) * (theta * a1 + (1 - theta) * a0) ≤ tol * size E0 W y := by
    nlinarith [mul_le_mul_of_nonneg_left k4 (by linarith : (0 : ℝ) ≤ 2 * theta - 1)]
  have k8 : tol * size E0 W y ≤ tol * (theta * a1 + (1 - theta) * a0) := mul_le_mul_of_nonneg_left k5 htol
  have k9 : 0 < theta * a1 + (1 - theta) * a0 := by nlinarith [mul_nonneg (by linarith : (0 : ℝ) ≤ 1 - theta) n0]
  nlinarith

/-- An exact step is one with tolerance zero. -/
theorem ThetaStep.inexact {u u' : V} (hW : ∀ y ∈ H, W y ∈ H) (h : ThetaStep E Eo dt theta semi H u u') :
    InexactTheta E Eo E0 W dt theta semi H 0 u u' :=
  ⟨h.1, fun y hy => by rw [h.2 (W y) (hW y hy), abs_zero, zero_mul]⟩

/-- C148: solutions with the same forcing never move apart, for any time step. -/
theorem C148_apart (F : Free E Eo E0 H W) (hdt : 0 ≤ dt) (ht : 1 / 2 ≤ theta) (ht1 : theta ≤ 1) {u u' v v' : V}
    (hu : u ∈ H) (hv : v ∈ H) (h : ThetaStep E Eo dt theta semi H u u') (h' : ThetaStep E Eo dt theta semi H v v') :
    size E0 W (v' - u') ≤ size E0 W (v - u) := by
  simpa using C148_theta F hdt ht ht1 le_rfl hu hv h (ThetaStep.inexact F.energy.maps h')

/-- C148: over a run the tolerances of the solves add up, whatever the time steps and however the forcing changes. -/
theorem C148_theta_run (E : ℕ → Eqn V) {E0 : Eqn V} (F : ∀ n, Free (E (n + 1)) (E n) E0 H W) (dt theta tol : ℕ → ℝ)
    (hdt : ∀ n, 0 ≤ dt n) (ht : ∀ n, 1 / 2 ≤ theta n) (ht1 : ∀ n, theta n ≤ 1) (htol : ∀ n, 0 ≤ tol n) (u v : ℕ → V)
    (hu0 : u 0 ∈ H) (hv0 : v 0 ∈ H)
    (hu : ∀ n, ThetaStep (E (n + 1)) (E n) (dt n) (theta n) semi H (u n) (u (n + 1)))
    (hv : ∀ n, InexactTheta (E (n + 1)) (E n) E0 W (dt n) (theta n) semi H (tol n) (v n) (v (n + 1))) (n : ℕ) :
    size E0 W (v n - u n) ≤ size E0 W (v 0 - u 0) + ∑ i ∈ range n, tol i := by
  induction n with
  | zero => simp
  | succ n ih =>
    have hun : u n ∈ H := by cases n with
      | zero => exact hu0
      | succ n => exact (hu n).1
    have hvn : v n ∈ H := by cases n with
      | zero => exact hv0
      | succ n => exact (hv n).1
    have := C148_theta (F n) (hdt n) (ht n) (ht1 n) (htol n) hun hvn (hu n) (hv n)
    rw [sum_range_succ]
    linarith

/-- C148: an error of at most `d` in forcing or boundary values, measured in the same way, counts like a tolerance of the
solver of `dt` times `d`. -/
theorem C148_forcing {E' Eo' : Eqn V} {d : ℝ} (hdt : 0 ≤ dt) (ht : 0 ≤ theta) (ht1 : theta ≤ 1) (hW : ∀ y ∈ H, W y ∈ H) {u u' : V}
    (hm : ∀ x w, E'.mass x w = E.mass x w)
    (hd : ∀ x v, ∀ y ∈ H, |E'.res x v (W y) - E.res x v (W y)| ≤ d * size E0 W y)
    (hdo : ∀ x v, ∀ y ∈ H, |Eo'.res x v (W y) - Eo.res x v (W y)| ≤ d * size E0 W y)
    (h : ThetaStep E' Eo' dt theta semi H u u') : InexactTheta E Eo E0 W dt theta semi H (dt * d) u u' := by
  refine ⟨h.1, fun y hy => ?_⟩
  have h1 := h.2 (W y) (hW y hy)
  rw [hm, hm] at h1
  have h2 := abs_le.1 (hd u' (if semi then u else u') y hy)
  have h3 := abs_le.1 (hdo u u y hy)
  have t1 : (0 : ℝ) ≤ 1 - theta := by linarith
  have a1 := mul_le_mul_of_nonneg_left h2.1 ht
  have a2 := mul_le_mul_of_nonneg_left h2.2 ht
  have b1 := mul_le_mul_of_nonneg_left h3.1 t1
  have b2 := mul_le_mul_of_nonneg_left h3.2 t1
  have c1 := mul_le_mul_of_nonneg_left (add_le_add a1 b1) hdt
  have c2 := mul_le_mul_of_nonneg_left (add_le_add a2 b2) hdt
  rw [abs_le]
  constructor <;> nlinarith

end Theta

/-! ### Other integrators -/

section Any

variable {E0 : Eqn V} {H : Submodule ℝ V} {W : V → V}

/-- C148: for any integrator that does not move solutions apart, errors of the single steps add up. -/
theorem C148_run (he : IsEnergy fun x y => E0.mass x (W y)) (P : ℕ → V → V → Prop)
    (hP : ∀ n, ∀ x ∈ H, ∀ x' ∈ H, ∀ y y', P n x y → P n x' y' → size E0 W (y - y') ≤ size E0 W (x - x')) (eps : ℕ → ℝ) (u v : ℕ → V)
    (hu0 : ∀ n, u n ∈ H) (hv0 : ∀ n, v n ∈ H) (hu : ∀ n, P n (u n) (u (n + 1))) (hv : ∀ n, Near E0 W (P n) (eps n) (v n) (v (n + 1)))
    (n : ℕ) : size E0 W (v n - u n) ≤ size E0 W (v 0 - u 0) + ∑ i ∈ range n, eps i := by
  induction n with
  | zero => simp
  | succ n ih =>
    obtain ⟨y, h1, h2⟩ := hv n
    have h3 := hP n (v n) (hv0 n) (u n) (hu0 n) y (u (n + 1)) h1 (hu n)
    have h4 := size_add_le he (v (n + 1) - y) (y - u (n + 1))
    rw [sub_add_sub_cancel] at h4
    rw [sum_range_succ]
    linarith

omit [AddCommGroup V] [Module ℝ V] in
theorem size_le_of_sq {x y : V} (h : E0.mass x (W x) ≤ E0.mass y (W y)) :
    size E0 W x ≤ size E0 W y := Real.sqrt_le_sqrt h

/-- The distance of a solved tendency from the exact one of another function. -/
theorem tendency_near {E : Eqn V} {dt tol : ℝ} (S : Super 1 (-1) E E E0) (hE : HasEnergy E0 H W) (hl : LinearEqn E0 W)
    (hc : Limit E0 dt H W 1) (htol : 0 ≤ tol) {x x' k k' z l d m : V} (hk : InexactTendency E E0 W dt H tol x k)
    (hk' : Tendency E dt H x' k') (hm : Tendency E0 dt H d m) (hz : z = x - x' - d) (hzH : z ∈ H)
    (hl' : Tendency E0 dt H z l) : size E0 W (k - k' - m) ≤ size E0 W z + tol := by
  have he := hE.energy
  set q := k - k' - m - l with hq
  have mq : q ∈ H := H.sub_mem (H.sub_mem (H.sub_mem hk.1 hk'.1) hm.1) hl'.1
  have e1 := (abs_le.1 (hk.2 q mq)).2
  have w := hE.maps q mq
  have e2 := hk'.2 (W q) w
  have e3 := hm.2 (W q) w
  have e4 := hl'.2 (W q) w
  have r1 : E0.res (x - x') (x - x') (W q) = E.res x x (W q) - E.res x' x' (W q) := Super.sub_res S _ _ _ _ _
  have r2 : E0.res (x - x') (x - x') (W q) = E0.res z z (W q) + E0.res d d (W q) := by
    have : x - x' = z + d := by rw [hz]; abel
    rw [this]
    exact hl.add_left z d q
  have m1 : E0.mass (k - k') (W q) = E.mass k (W q) - E.mass k' (W q) := Super.sub_mass S _ _ _
  have m2 : E0.mass q (W q) = E0.mass (k - k') (W q) - E0.mass m (W q) - E0.mass l (W q) := by
    have h1 := he.lin.sub_left (k - k' - m) l q
    have h2 := he.lin.sub_left (k - k') m q
    change E0.mass (k - k' - m - l) (W q) = _
    rw [h1, h2]
  have hs : size E0 W q ^ 2 ≤ tol * size E0 W q := by
    rw [size_sq he, m2, m1, e2, e3, e4]
    have : dt * E0.res (x - x') (x - x') (W q) = dt * E0.res z z (W q) + dt * E0.res d d (W q) := by rw [r2]; ring
    rw [r1] at this
    linarith
  have hq0 : size E0 W q ≤ tol := by
    have n0 : 0 ≤ size E0 W q := size_nonneg q
    by_contra hcon
    nlinarith [not_le.1 hcon]
  have hl1 : size E0 W l ≤ size E0 W z := by
    refine size_le_of_sq ?_
    have := hc z hzH l hl'.1 fun y hy => hl'.2 (W y) (hE.maps y hy)
    linarith
  have h4 := size_add_le he q l
  have : q + l = k - k' - m := by rw [hq]; abel
  rw [this] at h4
  linarith

/-- C148: in a step of `SSPRK33` with a CFL number of at most one the distance to the exact solution grows by 5/3 of the
tolerance at most. -/
theorem C148_ssprk33 {E : Eqn V} {dt tol : ℝ} [FiniteDimensional ℝ H] (S : Super 1 (-1) E E E0) (hE : HasEnergy E0 H W)
    (hl : LinearEqn E0 W) (hp : PassiveEqn E0 H W) (hdef : ∀ x ∈ H, E0.mass x (W x) = 0 → x = 0)
    (hW : ∀ w ∈ H, ∃ y ∈ H, W y = w) (hdt : 0 ≤ dt) (hc : Limit E0 dt H W 1) (htol : 0 ≤ tol) {u u' v v' : V} (hu : u ∈ H)
    (hv : v ∈ H) (h : Ssprk33Step E dt H u u') (h' : InexactSsprk33 E E0 W dt H tol v v') :
    size E0 W (v' - u') ≤ size E0 W (v - u) + 5 / 3 * tol := by
  have he := hE.energy
  obtain ⟨C, hC, s, k, hs, hk, rfl⟩ := h
  obtain ⟨C', hC', s', k', hs', hk', rfl⟩ := h'
  obtain ⟨d3, md3, hstep⟩ := C128_step E0 H W hE hl hdef hW dt (v - u) (H.sub_mem hv hu)
  have hsize := size_le_of_sq (C128_ssprk33 E0 H W dt _ _ hE hl hp (H.sub_mem hv hu) hdt hc hstep)
  obtain ⟨C'', hC'', d, m, hd, hm, rfl⟩ := hstep
  rw [RK.ssprk33_conv, Option.some.injEq] at hC hC' hC''
  subst hC hC' hC''
  obtain ⟨a0, e1⟩ := hk 0 (by decide)
  obtain ⟨a1, e2⟩ := hk 1 (by decide)
  obtain ⟨a2, e3⟩ := hk 2 (by decide)
  obtain ⟨a0', e1'⟩ := hk' 0 (by decide)
  obtain ⟨a1', e2'⟩ := hk' 1 (by decide)
  obtain ⟨a2', e3'⟩ := hk' 2 (by decide)
  obtain ⟨b0, f1⟩ := hm 0 (by decide)
  obtain ⟨b1, f2⟩ := hm 1 (by decide)
  obtain ⟨b2, f3⟩ := hm 2 (by decide)
  have hn : RK.ssprk33.n = 3 := rfl
  simp only [sum_range_succ, sum_range_zero, RK.Tableau.alpha, RK.Tableau.beta, RK.ssprk33_at0_al,
    RK.ssprk33_at0_be] at e1 e2 e3 e1' e2' e3' f1 f2 f3
  norm_num [hn] at e1 e2 e3 e1' e2' e3' f1 f2 f3
  rw [hn]
  rw [hn] at hsize
  have hd0 : d 0 ∈ H := hd ▸ H.sub_mem hv hu
  have hd1 : d 1 ∈ H := by rw [f1]; exact H.add_mem b0.1 hd0
  have hd2 : d 2 ∈ H := by
    rw [f2]; exact H.add_mem (H.smul_mem _ b1.1) (H.add_mem (H.smul_mem _ hd0) (H.smul_mem _ hd1))
  have hs0 : s 0 ∈ H := hs ▸ hu
  have hs0' : s' 0 ∈ H := hs' ▸ hv
  have hs1 : s 1 ∈ H := by rw [e1]; exact H.add_mem a0.1 hs0
  have hs1' : s' 1 ∈ H := by rw [e1']; exact H.add_mem a0'.1 hs0'
  have hs2 : s 2 ∈ H := by
    rw [e2]; exact H.add_mem (H.smul_mem _ a1.1) (H.add_mem (H.smul_mem _ hs0) (H.smul_mem _ hs1))
  have hs2' : s' 2 ∈ H := by
    rw [e2']; exact H.add_mem (H.smul_mem _ a1'.1) (H.add_mem (H.smul_mem _ hs0') (H.smul_mem _ hs1'))
  have T := fun x => (C128_tendency E0 H W hE hl hdef hW dt x).exists
  have z : ∀ i, s' i ∈ H → s i ∈ H → d i ∈ H → s' i - s i - d i ∈ H := fun i h1 h2 h3 => H.sub_mem (H.sub_mem h1 h2) h3
  obtain ⟨l0, t0⟩ := T (s' 0 - s 0 - d 0)
  obtain ⟨l1, t1⟩ := T (s' 1 - s 1 - d 1)
  obtain ⟨l2, t2⟩ := T (s' 2 - s 2 - d 2)
  have g0 := tendency_near S hE hl hc htol a0' a0 b0 rfl (z 0 hs0' hs0 hd0) t0
  have g1 := tendency_near S hE hl hc htol a1' a1 b1 rfl (z 1 hs1' hs1 hd1) t1
  have g2 := tendency_near S hE hl hc htol a2' a2 b2 rfl (z 2 hs2' hs2 hd2) t2
  have z0 : s' 0 - s 0 - d 0 = 0 := by rw [hs, hs', hd, sub_self]
  have s0 : size E0 W (s' 0 - s 0 - d 0) = 0 := by
    rw [z0]
    have := size_smul he 0 (0 : V)
    rw [zero_smul, abs_zero, zero_mul] at this
    exact this
  have z1 : s' 1 - s 1 - d 1 = k' 0 - k 0 - m 0 := by
    rw [e1, e1', f1, hs, hs', hd]; abel
  have z2 : s' 2 - s 2 - d 2 = (1 / 4 : ℝ) • (k' 1 - k 1 - m 1) + (1 / 4 : ℝ) • (s' 1 - s 1 - d 1) := by
    have : d 0 = s' 0 - s 0 := by rw [hs, hs', hd]
    rw [e2, e2', f2, this]; module
  have z3 : s' 3 - s 3 - d 3 = (2 / 3 : ℝ) • (k' 2 - k 2 - m 2) + (2 / 3 : ℝ) • (s' 2 - s 2 - d 2) := by
    have : d 0 = s' 0 - s 0 := by rw [hs, hs', hd]
    rw [e3, e3', f3, this]; module
  have n1 : size E0 W (s' 1 - s 1 - d 1) ≤ tol := by rw [z1]; linarith
  have n2 : size E0 W (s' 2 - s 2 - d 2) ≤ 3 / 4 * tol := by
    have := size_add_le he ((1 / 4 : ℝ) • (k' 1 - k 1 - m 1)) ((1 / 4 : ℝ) • (s' 1 - s 1 - d 1))
    rw [← z2, size_smul he, size_smul he, abs_of_pos (by norm_num : (0 : ℝ) < 1 / 4)] at this
    linarith
  have n3 : size E0 W (s' 3 - s 3 - d 3) ≤ 5 / 3 * tol := by
    have := size_add_le he ((2 / 3 : ℝ) • (k' 2 - k 2 - m 2)) ((2 / 3 : ℝ) • (s' 2 - s 2 - d 2))
    rw [← z3, size_smul he, size_smul he, abs_of_pos (by norm_num : (0 : ℝ) < 2 / 3)] at this
    linarith
  have := size_add_le he (s' 3 - s 3 - d 3) (d 3)
  rw [sub_add_cancel] at this
  linarith

end Any

end Verif.Accum
