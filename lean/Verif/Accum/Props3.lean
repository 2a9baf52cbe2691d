import Verif.Accum.Props2
import Verif.Converge.Props5
import Mathlib.Analysis.Calculus.MeanValue
import Mathlib.Analysis.Calculus.Deriv.Pow

/-!
C149: the errors of implicit runs do not depend on the mesh.
-/

namespace Verif.Accum

open Finset Verif.Dg Verif.Contract Verif.Explicit Verif.Linear Verif.Converge

/-! ### Rules for integrals -/

section Rules

variable {a b : ℝ}

theorem le_of_deriv {f f' B B' : ℝ → ℝ} (hf : ∀ t, HasDerivAt f (f' t) t) (hB : ∀ t, HasDerivAt B (B' t) t) (h0 : f a ≤ B a)
    (h : ∀ t, a ≤ t → t ≤ b → f' t ≤ B' t) (t : ℝ) (h1 : a ≤ t) (h2 : t ≤ b) : f t ≤ B t :=
  image_le_of_deriv_right_le_deriv_boundary (fun x _ => (hf x).continuousAt.continuousWithinAt) (fun x _ => (hf x).hasDerivWithinAt)
    h0 (fun x _ => (hB x).continuousAt.continuousWithinAt) (fun x _ => (hB x).hasDerivWithinAt)
    (fun x hx => h x hx.1 hx.2.le) ⟨h1, h2⟩

/-- A bound of the derivative by a power. -/
theorem abs_le_of_deriv {f f' : ℝ → ℝ} (hf : ∀ t, HasDerivAt f (f' t) t) (h0 : f a = 0) (n : ℕ) (c : ℝ)
    (h : ∀ t, a ≤ t → t ≤ b → |f' t| ≤ c * (t - a) ^ n) (t : ℝ) (h1 : a ≤ t) (h2 : t ≤ b) :
    |f t| ≤ c / (n + 1) * (t - a) ^ (n + 1) := by
  have hB : ∀ t, HasDerivAt (fun t => c / (n + 1) * (t - a) ^ (n + 1)) (c * (t - a) ^ n) t := fun t => by
    have := (((hasDerivAt_id t).sub_const a).pow (n + 1)).const_mul (c / (n + 1))
    refine this.congr_deriv ?_
    have : (n : ℝ) + 1 ≠ 0 := by positivity
    simp only [id, Nat.add_sub_cancel]
    push_cast
    field_simp
  refine abs_le.2 ⟨?_, le_of_deriv hf hB (by simp [h0]) (fun t h1 h2 => (abs_le.1 (h t h1 h2)).2) t h1 h2⟩
  have := le_of_deriv (fun t => (hf t).neg) hB (by simp [h0]) (fun t h1 h2 => by linarith [(abs_le.1 (h t h1 h2)).1]) t h1 h2
  simp only [Pi.neg_apply] at this
  linarith

/-- The error of the trapezoidal rule, and of one with other weights. -/
theorem theta_rule {g g1 g2 g3 : ℝ → ℝ} (h1 : ∀ t, HasDerivAt g (g1 t) t) (h2 : ∀ t, HasDerivAt g1 (g2 t) t)
    (h3 : ∀ t, HasDerivAt g2 (g3 t) t) (hab : a ≤ b) {M2 M3 theta : ℝ} (ht : 1 / 2 ≤ theta)
    (hM2 : ∀ t, a ≤ t → t ≤ b → |g2 t| ≤ M2) (hM3 : ∀ t, a ≤ t → t ≤ b → |g3 t| ≤ M3) :
    |g b - g a - (b - a) * (theta * g1 b + (1 - theta) * g1 a)| ≤
      (b - a) * ((theta - 1 / 2) * (b - a) * M2 + (b - a) ^ 2 / 12 * M3) := by
  have d1 : ∀ t, HasDerivAt (fun t => g1 t / 2 - g1 a / 2 - (t - a) / 2 * g2 t) (-((t - a) / 2 * g3 t)) t := fun t => by
    have := (((h2 t).div_const 2).sub_const (g1 a / 2)).sub ((((hasDerivAt_id t).sub_const a).div_const 2).mul (h3 t))
    refine this.congr_deriv ?_
    simp only [id]
    ring
  have e1 := abs_le_of_deriv (a := a) (b := b) d1 (by ring) 1 (M3 / 2) fun t u v => by
    rw [abs_neg, abs_mul, abs_of_nonneg (by linarith)]
    nlinarith [hM3 t u v]
  have d0 : ∀ t, HasDerivAt (fun t => g t - g a - (t - a) * (1 / 2 * g1 t + 1 / 2 * g1 a))
      (g1 t / 2 - g1 a / 2 - (t - a) / 2 * g2 t) t := fun t => by
    have := ((h1 t).sub_const (g a)).sub (((hasDerivAt_id t).sub_const a).mul (((h2 t).const_mul (1 / 2)).add_const (1 / 2 * g1 a)))
    refine this.congr_deriv ?_
    simp only [id]
    ring
  have e0 := abs_le_of_deriv (a := a) (b := b) d0 (by ring) 2 (M3 / 4) (fun t u v => by
    have := e1 t u v
    norm_num at this
    linarith) b hab le_rfl
  have e2 := abs_le_of_deriv (a := a) (b := b) (fun t => (h2 t).sub_const (g1 a)) (by ring) 0 M2 (fun t u v => by
    simpa using hM2 t u v) b hab le_rfl
  norm_num at e0 e2
  have k0 : 0 ≤ (theta - 1 / 2) * (b - a) := mul_nonneg (by linarith) (by linarith)
  have k1 := mul_le_mul_of_nonneg_left e2 k0
  have e3 : g b - g a - (b - a) * (theta * g1 b + (1 - theta) * g1 a) =
      (g b - g a - (b - a) * (1 / 2 * g1 b + 1 / 2 * g1 a)) - (theta - 1 / 2) * (b - a) * (g1 b - g1 a) := by ring
  rw [e3]
  refine (abs_sub _ _).trans ?_
  rw [abs_mul, abs_of_nonneg k0]
  nlinarith

/-- Taylor's formula. -/
theorem taylor3 {g g1 g2 g3 g4 : ℝ → ℝ} (h1 : ∀ t, HasDerivAt g (g1 t) t) (h2 : ∀ t, HasDerivAt g1 (g2 t) t)
    (h3 : ∀ t, HasDerivAt g2 (g3 t) t) (h4 : ∀ t, HasDerivAt g3 (g4 t) t) (hab : a ≤ b) {M : ℝ}
    (hM : ∀ t, a ≤ t → t ≤ b → |g4 t| ≤ M) :
    |g b - (g a + (b - a) * g1 a + (b - a) ^ 2 / 2 * g2 a + (b - a) ^ 3 / 6 * g3 a)| ≤ (b - a) ^ 4 / 24 * M := by
  have e3 := abs_le_of_deriv (a := a) (b := b) (fun t => (h4 t).sub_const (g3 a)) (by ring) 0 M fun t u v => by
    simpa using hM t u v
  have d2 : ∀ t, HasDerivAt (fun t => g2 t - g2 a - (t - a) * g3 a) (g3 t - g3 a) t := fun t => by
    refine (((h3 t).sub_const (g2 a)).sub (((hasDerivAt_id t).sub_const a).mul_const (g3 a))).congr_deriv ?_
    ring
  have e2 := abs_le_of_deriv (a := a) (b := b) d2 (by ring) 1 M fun t u v => by
    have := e3 t u v
    norm_num at this
    linarith
  have d1 : ∀ t, HasDerivAt (fun t => g1 t - g1 a - (t - a) * g2 a - (t - a) ^ 2 / 2 * g3 a) (g2 t - g2 a - (t - a) * g3 a) t :=
    fun t => by
      have q := (((hasDerivAt_id t).sub_const a).pow 2).div_const 2
      refine ((((h2 t).sub_const (g1 a)).sub (((hasDerivAt_id t).sub_const a).mul_const (g2 a))).sub (q.mul_const (g3 a))).congr_deriv ?_
      simp only [id]
      push_cast
      ring
  have e1 := abs_le_of_deriv (a := a) (b := b) d1 (by ring) 2 (M / 2) fun t u v => by
    have := e2 t u v
    norm_num at this
    linarith
  have d0 : ∀ t, HasDerivAt (fun t => g t - (g a + (t - a) * g1 a + (t - a) ^ 2 / 2 * g2 a + (t - a) ^ 3 / 6 * g3 a))
      (g1 t - g1 a - (t - a) * g2 a - (t - a) ^ 2 / 2 * g3 a) t := fun t => by
    have q2 := ((((hasDerivAt_id t).sub_const a).pow 2).div_const 2).mul_const (g2 a)
    have q3 := ((((hasDerivAt_id t).sub_const a).pow 3).div_const 6).mul_const (g3 a)
    have q1 := ((hasDerivAt_id t).sub_const a).mul_const (g1 a)
    refine ((h1 t).sub (((q1.const_add (g a)).add q2).add q3)).congr_deriv ?_
    simp only [id]
    push_cast
    ring
  have e0 := abs_le_of_deriv (a := a) (b := b) d0 (by ring) 3 (M / 6) (fun t u v => by
    have := e1 t u v
    norm_num at this
    linarith) b hab le_rfl
  norm_num at e0
  refine e0.trans (le_of_eq ?_)
  ring

end Rules

universe u

variable {V : Type u} [AddCommGroup V] [Module ℝ V]

/-! ### Solutions in continuous time -/

/-- `U 0` is a solution of the equations `E` (with fields and boundary conditions of a time), discrete in space only, and
`U 1`, `U 2`, `U 3` are its derivatives in time. -/
structure SolvesWeak (E : ℝ → ℝ → Eqn V) (E0 : Eqn V) (H : Submodule ℝ V) (W : V → V) (U : ℕ → ℝ → V) : Prop where
  mem : ∀ j t, U j t ∈ H
  deriv : ∀ j t, ∀ y ∈ H, HasDerivAt (fun s => E0.mass (U j s) (W y)) (E0.mass (U (j + 1) t) (W y)) t
  eqn : ∀ t, 0 ≤ t → ∀ y ∈ H, E0.mass (U 1 t) (W y) = (E t t).res (U 0 t) (U 0 t) (W y)

section Theta

variable {E : ℝ → ℝ → Eqn V} {E0 : Eqn V} {H : Submodule ℝ V} {W : V → V} {U : ℕ → ℝ → V} {theta : ℝ} {semi : Bool}

/-- C149: the error of `CrankNicolson` (of the second order for `theta = 1/2`, else of the first) is at most time times
`(theta - 1/2) dt` times the second derivative plus `dt² / 12` times the third.  Nothing else enters: neither the size of
cells nor a limit on the time step. -/
theorem C149_theta (F : ∀ t r s q, Free (E t r) (E s q) E0 H W) (hB : SteadyBnd E) (hU : SolvesWeak E E0 H W U) (ht : 1 / 2 ≤ theta)
    (ht1 : theta ≤ 1) {M2 M3 tEnd : ℝ} (hM2 : ∀ t, 0 ≤ t → t ≤ tEnd → size E0 W (U 2 t) ≤ M2)
    (hM3 : ∀ t, 0 ≤ t → t ≤ tEnd → size E0 W (U 3 t) ≤ M3) {dt : ℝ} (hdt : 0 ≤ dt) (u : ℕ → V) (h0 : u 0 ∈ H)
    (hu : ∀ n : ℕ, CrankAt E theta semi H Set.univ (n * dt) dt (u n) (u (n + 1))) (n : ℕ) (hn : n * dt ≤ tEnd) :
    size E0 W (U 0 (n * dt) - u n) ≤
      size E0 W (U 0 0 - u 0) + n * dt * ((theta - 1 / 2) * dt * M2 + dt ^ 2 / 12 * M3) := by
  have he := (F 0 0 0 0).energy.energy
  induction n with
  | zero => simp
  | succ n ih =>
    have hn0 : 0 ≤ (n : ℝ) * dt := by positivity
    have hn1 : ((n + 1 : ℕ) : ℝ) * dt = n * dt + dt := by push_cast; ring
    rw [hn1] at hn
    have hm : u n ∈ H := by cases n with
      | zero => exact h0
      | succ n => exact (hu n).2.2.1
    set s := (n : ℝ) * dt with hs
    have h2 : 0 ≤ M2 := (size_nonneg _).trans (hM2 0 le_rfl (by linarith))
    have h3 : 0 ≤ M3 := (size_nonneg _).trans (hM3 0 le_rfl (by linarith))
    have Fs := F (s + dt) (s + dt) s (s + dt)
    have hmass : ∀ t r x x' y, (E t r).mass x (W y) - (E t r).mass x' (W y) = E0.mass x (W y) - E0.mass x' (W y) :=
      fun t r x x' y => by
        rw [← Super.sub_mass (F t r t r).super x x' (W y)]
        exact he.lin.sub_left x x' y
    have hres : ∀ t r x v v' y, (E t r).res x v (W y) = (E t r).res x v' (W y) := fun t r x v v' y => by
      have h1 := Super.sub_res (F t r t r).super x x v v' (W y)
      have h2 : E0.res (x - x) (v - v') (W y) = 0 := by
        have := ((F t r t r).linear (v - v')).smul_left 0 x y
        rw [zero_smul, zero_mul] at this
        rw [sub_self]
        exact this
      linarith
    have step : InexactTheta (E (s + dt) (s + dt)) (E s (s + dt)) E0 W dt theta semi H
        (dt * ((theta - 1 / 2) * dt * M2 + dt ^ 2 / 12 * M3)) (U 0 s) (U 0 (s + dt)) := by
      refine ⟨hU.mem 0 _, fun y hy => ?_⟩
      have hb : ∀ j M, 0 ≤ M → (∀ t, 0 ≤ t → t ≤ tEnd → size E0 W (U j t) ≤ M) → ∀ t, s ≤ t → t ≤ s + dt →
          |E0.mass (U j t) (W y)| ≤ M * size E0 W y := fun j M _ h t a b =>
        (cauchy he _ _).trans (mul_le_mul_of_nonneg_right (h t (by linarith) (by linarith)) (size_nonneg _))
      have key := theta_rule (hab := by linarith) (fun t => hU.deriv 0 t y hy) (fun t => hU.deriv 1 t y hy) (fun t => hU.deriv 2 t y hy) ht
        (hb 2 M2 h2 hM2) (hb 3 M3 h3 hM3)
      rw [add_sub_cancel_left, zero_add, hU.eqn _ (by linarith) y hy, hU.eqn s hn0 y hy] at key
      rw [hmass, hres _ _ _ _ (U 0 (s + dt)), hB s (s + dt) s]
      refine key.trans (le_of_eq ?_)
      ring
    have hpos : 0 ≤ dt * ((theta - 1 / 2) * dt * M2 + dt ^ 2 / 12 * M3) :=
      mul_nonneg hdt (add_nonneg (mul_nonneg (mul_nonneg (by linarith) hdt) h2) (by positivity))
    have k1 := C148_theta Fs hdt ht ht1 hpos hm (hU.mem 0 s) (hu n).2.2 step
    have k2 := ih (by linarith)
    rw [hn1]
    linarith

end Theta

/-! ### Linear equations without forcing -/

section Flow

variable {E : Eqn V} {H : Submodule ℝ V} {W : V → V}

/-- C149: an equation that is linear and does not create energy has a solution in continuous time; none of its derivatives in time ever
becomes larger than at the start. -/
theorem C149_flow (hE : HasEnergy E H W) (hl : LinearEqn E W) (hp : PassiveEqn E H W) (hdef : ∀ x ∈ H, E.mass x (W x) = 0 → x = 0)
    (hfin : FiniteDimensional ℝ H) (u0 : V) (h0 : u0 ∈ H) :
    ∃ U : ℕ → ℝ → V, U 0 0 = u0 ∧ SolvesWeak (fun _ _ => E) E H W U ∧ (∀ j t, Tend E 1 H W (U j t) (U (j + 1) t)) ∧
      ∀ j t, 0 ≤ t → size E W (U j t) ≤ size E W (U j 0) := by
  obtain ⟨F, i1, i2, i3, g, hg, hsur, hin⟩ := exists_inner (e := massForm E W) hE.energy hdef hfin
  have hin' : ∀ x y, Inner.inner ℝ x y = E.mass (g x) (W (g y)) := hin
  choose A hA using fun x : F => riesz (F := F)
    { toFun := fun y => E.res (g x) (g x) (W (g y))
      map_add' := fun y z => by rw [map_add]; exact (hl.2 _).1 _ _
      map_smul' := fun a y => by rw [map_smul]; exact (hl.2 _).2 _ _ }
  have hA' : ∀ x y, Inner.inner ℝ (A x) y = E.res (g x) (g x) (W (g y)) := hA
  let A' : F →ₗ[ℝ] F :=
    { toFun := A
      map_add' := fun x y => ext_inner_right ℝ fun z => by
        rw [inner_add_left, hA', hA', hA', map_add]
        exact (hl.1 _).1 _ _
      map_smul' := fun a x => ext_inner_right ℝ fun z => by
        rw [RingHom.id_apply, real_inner_smul_left, hA', hA', map_smul]
        exact (hl.1 _).2 _ _ }
  obtain ⟨x0, rfl⟩ := hsur u0 h0
  have : CompleteSpace F := FiniteDimensional.complete ℝ F
  obtain ⟨X, hX0, hXd, -⟩ := exists_flow (LinearMap.toContinuousLinearMap A') x0
  have hd : ∀ j t, HasDerivAt (fun s => A^[j] (X s)) (A^[j + 1] (X t)) t := fun j => by
    induction j with
    | zero => exact hXd
    | succ j ih =>
      intro t
      have := (LinearMap.toContinuousLinearMap A').hasFDerivAt.comp_hasDerivAt t (ih t)
      simp only [Function.iterate_succ_apply'] at this ⊢
      exact this
  have htend : ∀ x, Tend E 1 H W (g x) (g (A x)) := fun x => ⟨hg _, fun y hy => by
    obtain ⟨y, rfl⟩ := hsur y hy
    rw [← hin', hA', one_mul]⟩
  have hT : ∀ j t, Tend E 1 H W (g (A^[j] (X t))) (g (A^[j + 1] (X t))) := fun j t => by
    rw [Function.iterate_succ_apply']
    exact htend _
  refine ⟨fun j t => g (A^[j] (X t)), congrArg g hX0, ⟨fun j t => hg _, fun j t y hy => ?_, fun t _ y hy => ?_⟩, hT, fun j t ht => ?_⟩
  · obtain ⟨y, rfl⟩ := hsur y hy
    simp only [← hin']
    have := (hd j t).inner ℝ (hasDerivAt_const t y)
    simpa using this
  · have := (hT 0 t).2 y hy
    rw [one_mul] at this
    exact this
  · refine Real.sqrt_le_sqrt ?_
    have h1 : ∀ t, HasDerivAt (fun s => E.mass (g (A^[j] (X s))) (W (g (A^[j] (X s))))) (2 * E.res (g (A^[j] (X t))) (g (A^[j] (X t)))
        (W (g (A^[j] (X t))))) t := fun t => by
      simp only [← hin']
      have := (hd j t).inner ℝ (hd j t)
      refine this.congr_deriv ?_
      rw [real_inner_comm, Function.iterate_succ_apply', hA']
      ring
    exact le_of_deriv (a := 0) (b := t) h1 (fun t => hasDerivAt_const t _) le_rfl (fun s _ _ => by linarith [hp _ (hg (A^[j] (X s)))]) t ht le_rfl

theorem Tend.unique (hE : HasEnergy E H W) (hdef : ∀ x ∈ H, E.mass x (W x) = 0 → x = 0) {dt : ℝ} {x k k' : V} (h : Tend E dt H W x k)
    (h' : Tend E dt H W x k') : k = k' := by
  have hm := H.sub_mem h.1 h'.1
  refine sub_eq_zero.1 (hdef _ hm ?_)
  have : E.mass (k - k') (W (k - k')) = E.mass k (W (k - k')) - E.mass k' (W (k - k')) := hE.energy.lin.sub_left _ _ _
  rw [this, h.2 _ hm, h'.2 _ hm, sub_self]

theorem Tend.scale (hE : HasEnergy E H W) (hl : LinearEqn E W) {x k : V} (h : Tend E 1 H W x k) (dt c : ℝ) :
    Tend E dt H W (c • x) ((dt * c) • k) :=
  ⟨H.smul_mem _ h.1, fun y hy => by
    have h1 : E.mass ((dt * c) • k) (W y) = dt * c * E.mass k (W y) := hE.energy.lin.smul_left _ _ _
    have h2 : E.res (c • x) (c • x) (W y) = c * E.res x x (W y) := hl.smul_left _ _ _
    rw [h1, h2, h.2 y hy]
    ring⟩

theorem Free.linearEqn {Eo : Eqn V} {E0 : Eqn V} (F : Free E Eo E0 H W) : LinearEqn E0 W := by
  have := F.linear 0
  unfold Linear at this
  unfold LinearEqn
  have e : (fun x y => E0.res x x (W y)) = fun x y => E0.res x 0 (W y) := funext fun x => funext fun y => F.fixed _ _ _ _
  rw [e]
  exact this

/-- An exact step is one with tolerance zero. -/
theorem ssprk33_inexact (hE : HasEnergy E H W) {E0 : Eqn V} {dt : ℝ} {x y : V} (h : Ssprk33Step E dt H x y) :
    InexactSsprk33 E E0 W dt H 0 x y := by
  obtain ⟨C, hC, s, k, hs, hk, hn⟩ := h
  exact ⟨C, hC, s, k, hs, fun i hi => ⟨⟨(hk i hi).1.1, fun y hy => by
    rw [(hk i hi).1.2 _ (hE.maps y hy), sub_self, abs_zero, zero_mul]⟩, (hk i hi).2⟩, hn⟩

/-- C149: the error of `CrankNicolson` and `SSPRK33` for any such equation, by the tendencies of the initial function: `k1` is
its rate of change, `k2` that of `k1`, and so on.  For `CrankNicolson` there is no limit on the time step. -/
theorem C149_linear (F : Free E E E H W) (hdef : ∀ x ∈ H, E.mass x (W x) = 0 → x = 0) (hW : ∀ w ∈ H, ∃ y ∈ H, W y = w)
    (hfin : FiniteDimensional ℝ H) (u0 k1 k2 k3 k4 : V) (h0 : u0 ∈ H) (t1 : Tend E 1 H W u0 k1) (t2 : Tend E 1 H W k1 k2)
    (t3 : Tend E 1 H W k2 k3) (t4 : Tend E 1 H W k3 k4) :
    ∃ U : ℝ → V, U 0 = u0 ∧ (∀ t, U t ∈ H) ∧
      (∀ t, ∀ y ∈ H, HasDerivAt (fun s => E.mass (U s) (W y)) (E.res (U t) (U t) (W y)) t) ∧
      (∀ theta semi dt, 1 / 2 ≤ theta → theta ≤ 1 → 0 ≤ dt → ∀ u : ℕ → V, u 0 = u0 →
        (∀ n, ThetaStep E E dt theta semi H (u n) (u (n + 1))) → ∀ n : ℕ,
          size E W (U (n * dt) - u n) ≤ n * dt * ((theta - 1 / 2) * dt * size E W k2 + dt ^ 2 / 12 * size E W k3)) ∧
      ∀ dt, 0 ≤ dt → Limit E dt H W 1 → ∀ u : ℕ → V, u 0 = u0 → (∀ n, u n ∈ H) → (∀ n, Ssprk33Step E dt H (u n) (u (n + 1))) → ∀ n : ℕ,
        size E W (U (n * dt) - u n) ≤ n * dt * (dt ^ 3 / 24 * size E W k4) := by
  have hE := F.energy
  have he := hE.energy
  have hl := F.linearEqn
  have hp : PassiveEqn E H W := fun x hx => F.passive x x hx
  obtain ⟨U, hU0, hU, hT, hb⟩ := C149_flow hE hl hp hdef hfin u0 h0
  have e1 : U 1 0 = k1 := Tend.unique hE hdef (hT 0 0) (hU0 ▸ t1)
  have e2 : U 2 0 = k2 := Tend.unique hE hdef (hT 1 0) (e1 ▸ t2)
  have e3 : U 3 0 = k3 := Tend.unique hE hdef (hT 2 0) (e2 ▸ t3)
  have e4 : U 4 0 = k4 := Tend.unique hE hdef (hT 3 0) (e3 ▸ t4)
  have z : size E W (0 : V) = 0 := by
    have := size_smul he 0 (0 : V)
    rwa [zero_smul, abs_zero, zero_mul] at this
  refine ⟨U 0, hU0, hU.mem 0, fun t y hy => ?_, fun theta semi dt ht ht1 hdt u hu0 hu n => ?_, fun dt hdt hc u hu0 hm hu n => ?_⟩
  · have := hU.deriv 0 t y hy
    rwa [(hT 0 t).2 y hy, one_mul] at this
  · have := C149_theta (E := fun _ _ => E) (tEnd := n * dt) (fun _ _ _ _ => F) (fun _ _ _ => rfl) hU ht ht1 (M2 := size E W k2)
      (M3 := size E W k3) (fun t h _ => e2 ▸ hb 2 t h) (fun t h _ => e3 ▸ hb 3 t h) hdt u (hu0 ▸ h0)
      (fun n => ⟨trivial, trivial, hu n⟩) n le_rfl
    rwa [hU0, hu0, sub_self, z, zero_add] at this
  · have near : ∀ n : ℕ, Near E W (Ssprk33Step E dt H) (dt ^ 4 / 24 * size E W k4) (U 0 (n * dt)) (U 0 ((n + 1 : ℕ) * dt)) := fun n => by
      have hn1 : ((n + 1 : ℕ) : ℝ) * dt = n * dt + dt := by push_cast; ring
      have hn0 : 0 ≤ (n : ℝ) * dt := by positivity
      rw [hn1]
      set s := (n : ℝ) * dt
      obtain ⟨y, hy, hstep⟩ := C128_step E H W hE hl hdef hW dt (U 0 s) (hU.mem 0 s)
      refine ⟨y, hstep, ?_⟩
      obtain ⟨w1, w2, w3, a1, a2, a3, hyw⟩ := ssprk33_cubic hE hl hstep
      have b1 : w1 = dt • U 1 s := Tend.unique hE hdef a1 (by simpa using Tend.scale hE hl (hT 0 s) dt 1)
      have b2 : w2 = (dt * dt) • U 2 s := Tend.unique hE hdef a2 (b1 ▸ Tend.scale hE hl (hT 1 s) dt dt)
      have b3 : w3 = (dt * (dt * dt)) • U 3 s := Tend.unique hE hdef a3 (b2 ▸ Tend.scale hE hl (hT 2 s) dt (dt * dt))
      set x := U 0 (s + dt) - y with hx
      have hxH : x ∈ H := H.sub_mem (hU.mem 0 _) hy
      have tay := taylor3 (a := s) (b := s + dt) (fun t => hU.deriv 0 t x hxH) (fun t => hU.deriv 1 t x hxH) (fun t => hU.deriv 2 t x hxH)
        (fun t => hU.deriv 3 t x hxH) (by linarith) (M := size E W k4 * size E W x) fun t h _ =>
          (cauchy he _ _).trans (mul_le_mul_of_nonneg_right (e4 ▸ hb 4 t (by linarith)) (size_nonneg _))
      rw [add_sub_cancel_left] at tay
      have m1 : E.mass x (W x) = E.mass (U 0 (s + dt)) (W x) - E.mass y (W x) := he.lin.sub_left _ _ _
      have m2 : E.mass y (W x) = E.mass (U 0 s) (W x) + dt * E.mass (U 1 s) (W x) + dt ^ 2 / 2 * E.mass (U 2 s) (W x) +
          dt ^ 3 / 6 * E.mass (U 3 s) (W x) := by
        have c : ∀ a b : V, E.mass (a + b) (W x) = E.mass a (W x) + E.mass b (W x) := fun a b => he.lin.add_left a b x
        have d : ∀ (r : ℝ) (a : V), E.mass (r • a) (W x) = r * E.mass a (W x) := fun r a => he.lin.smul_left r a x
        rw [hyw, b1, b2, b3, c, c, c, d, d, d, d, d]
        ring
      rw [← m2, ← m1, abs_of_nonneg (he.nonneg x)] at tay
      have hsq := size_sq he x
      have n0 : 0 ≤ size E W x := size_nonneg x
      by_contra hcon
      have hk : 0 ≤ dt ^ 4 / 24 * size E W k4 := mul_nonneg (by positivity) (size_nonneg _)
      nlinarith [not_le.1 hcon]
    have := C148_run he (H := H) (fun _ => Ssprk33Step E dt H) (fun _ x hx x' hx' y y' a b => by
      simpa using C148_ssprk33 F.super hE hl hp hdef hW hdt hc le_rfl hx' hx b (ssprk33_inexact hE a)) (fun _ => dt ^ 4 / 24 * size E W k4) u
      (fun n => U 0 (n * dt)) hm (fun n => hU.mem 0 _) hu near n
    simp only [Nat.cast_zero, zero_mul, hU0, hu0, sub_self, z, zero_add, sum_const, card_range, nsmul_eq_mul] at this
    refine this.trans (le_of_eq ?_)
    ring

end Flow

/-! ### Waves and tracers -/

/-- C149: waves in a closed basin, with rotation and linear friction. -/
theorem C149_waves {m : Mesh 2} {T : Swe.Term m} {K : Swe.Coeffs m} {Hu : Submodule ℝ (Vc m)} {He : Submodule ℝ (Sc m)} {H : ℝ}
    (B : Basin T K (fun _ => none) Hu He H) (hcd : K.cd = none) (hfarms : K.farms = [])
    (hdef : ∀ x ∈ Hu.prod He, (∀ c, (∀ i, (x.1 i (.cell c)).v = 0) ∧ (x.2 (.cell c)).v = 0) → x = 0) (hw : ∀ c, 0 < m.wC c)
    (hfin : FiniteDimensional ℝ (Hu.prod He)) (u0 k1 k2 k3 k4 : State m) (h0 : u0 ∈ Hu.prod He)
    (t1 : Tendency (swe T K fun _ => none) 1 (Hu.prod He) u0 k1) (t2 : Tendency (swe T K fun _ => none) 1 (Hu.prod He) k1 k2)
    (t3 : Tendency (swe T K fun _ => none) 1 (Hu.prod He) k2 k3) (t4 : Tendency (swe T K fun _ => none) 1 (Hu.prod He) k3 k4) :
    ∃ U : ℝ → State m, U 0 = u0 ∧ (∀ t, U t ∈ Hu.prod He) ∧
      (∀ t, ∀ w ∈ Hu.prod He,
        HasDerivAt (fun s => (swe T K fun _ => none).mass (U s) w) ((swe T K fun _ => none).res (U t) (U t) w) t) ∧
      (∀ theta semi dt, 1 / 2 ≤ theta → theta ≤ 1 → 0 ≤ dt → ∀ u : ℕ → State m, u 0 = u0 →
        (∀ n, ThetaStep (swe T K fun _ => none) (swe T K fun _ => none) dt theta semi (Hu.prod He) (u n) (u (n + 1))) → ∀ n : ℕ,
          dist T.g H (U (n * dt)) (u n) ≤
            n * dt * ((theta - 1 / 2) * dt * Real.sqrt (waveEnergy T.g H k2) + dt ^ 2 / 12 * Real.sqrt (waveEnergy T.g H k3))) ∧
      ∀ dt, 0 ≤ dt → Limit (swe T K fun _ => none) dt (Hu.prod He) (weight T.g H) 1 → ∀ u : ℕ → State m, u 0 = u0 →
        (∀ n, u n ∈ Hu.prod He) → (∀ n, Ssprk33Step (swe T K fun _ => none) dt (Hu.prod He) (u n) (u (n + 1))) → ∀ n : ℕ,
          dist T.g H (U (n * dt)) (u n) ≤ n * dt * (dt ^ 3 / 24 * Real.sqrt (waveEnergy T.g H k4)) := by
  have hK : unforced K = K := by
    obtain ⟨b1, b2, b3, b4, -⟩ := B.free
    unfold unforced
    cases K
    simp_all
  have D : Driven T K Hu He H := ⟨hK.symm ▸ B, hcd, hfarms⟩
  have F := D.free D rfl
  rw [hK] at F
  have hE := B.hasEnergy
  obtain ⟨U, a, b, c, d, e⟩ := C149_linear F (Contract.Basin.definite B hdef hw) B.onto hfin u0 k1 k2 k3 k4 h0 (t1.tend hE) (t2.tend hE)
    (t3.tend hE) (t4.tend hE)
  have hs : ∀ x, size (swe T K fun _ => none) (weight T.g H) x = Real.sqrt (waveEnergy T.g H x) := fun x => by
    unfold size
    rw [B.energy]
  simp only [hs] at d e
  refine ⟨U, a, b, fun t w hw' => ?_, d, e⟩
  obtain ⟨y, hy, rfl⟩ := B.onto w hw'
  exact c t y hy

/-- C149: tracers in a steady flow without divergence. -/
theorem C149_tracer {m : Mesh 2} {T : Tracer2.Term m} {F : Tracer2.Flow m} {mu : Option (Sc m)} {bc : ℕ → Option (Tracer2.BFuncs m)}
    {H : Submodule ℝ (Sc m)} (C : Carried T F mu bc H) (hb : Bnds2 1 (-1) bc bc bc)
    (hdef : ∀ c ∈ H, (∀ x, (c (.cell x)).v = 0) → c = 0) (hw : ∀ x, 0 < m.wC x) (hfin : FiniteDimensional ℝ H) (u0 k1 k2 k3 k4 : Sc m)
    (h0 : u0 ∈ H) (t1 : Tendency (tracer2 T F mu bc) 1 H u0 k1) (t2 : Tendency (tracer2 T F mu bc) 1 H k1 k2)
    (t3 : Tendency (tracer2 T F mu bc) 1 H k2 k3) (t4 : Tendency (tracer2 T F mu bc) 1 H k3 k4) :
    ∃ U : ℝ → Sc m, U 0 = u0 ∧ (∀ t, U t ∈ H) ∧
      (∀ t, ∀ w ∈ H, HasDerivAt (fun s => ip (U s) w) ((tracer2 T F mu bc).res (U t) (U t) w) t) ∧
      (∀ theta semi dt, 1 / 2 ≤ theta → theta ≤ 1 → 0 ≤ dt → ∀ u : ℕ → Sc m, u 0 = u0 →
        (∀ n, ThetaStep (tracer2 T F mu bc) (tracer2 T F mu bc) dt theta semi H (u n) (u (n + 1))) → ∀ n : ℕ,
          rms (U (n * dt)) (u n) ≤ n * dt * ((theta - 1 / 2) * dt * rms k2 0 + dt ^ 2 / 12 * rms k3 0)) ∧
      ∀ dt, 0 ≤ dt → Limit (tracer2 T F mu bc) dt H id 1 → ∀ u : ℕ → Sc m, u 0 = u0 → (∀ n, u n ∈ H) →
        (∀ n, Ssprk33Step (tracer2 T F mu bc) dt H (u n) (u (n + 1))) → ∀ n : ℕ,
          rms (U (n * dt)) (u n) ≤ n * dt * (dt ^ 3 / 24 * rms k4 0) := by
  have hE := C.hasEnergy
  have S : Super 1 (-1) (tracer2 T F mu bc) (tracer2 T F mu bc) (tracer2 T F mu bc) := by
    have h1 : tracerEqn T F mu none id bc = tracer2 T F mu bc := by
      unfold tracerEqn tracer2
      simp [Tracer2.source]
    have := tracer_super (T := T) (F := F) (mu := mu) hb none
    rwa [h1] at this
  have Fr : Free (tracer2 T F mu bc) (tracer2 T F mu bc) (tracer2 T F mu bc) H id :=
    ⟨S, S, hE, C.linear, C.passive, fun _ _ _ _ => rfl⟩
  have hd : ∀ x ∈ H, (tracer2 T F mu bc).mass x (id x) = 0 → x = 0 := fun c hc h0 => hdef c hc fun x => by
    have y := (sum_eq_zero_iff_of_nonneg fun _ _ => mul_nonneg (hw _).le (mul_self_nonneg _)).1 h0 x (mem_univ x)
    exact mul_self_eq_zero.1 ((mul_eq_zero.1 y).resolve_left (hw x).ne')
  obtain ⟨U, a, b, c, d, e⟩ := C149_linear Fr hd (fun w hw' => ⟨w, hw', rfl⟩) hfin u0 k1 k2 k3 k4 h0 (t1.tend hE) (t2.tend hE) (t3.tend hE)
    (t4.tend hE)
  have hs : ∀ x, size (tracer2 T F mu bc) id x = rms x 0 := fun x => by
    rw [← rms_eq (T := T) (F := F) (mu := mu) (bc0 := bc), sub_zero]
  simp only [rms_eq] at d e
  simp only [hs] at d e
  exact ⟨U, a, b, c, d, e⟩

/-! ### Examples -/

/-- The tendencies of the hypotheses exist: waves of linear functions on the square. -/
example (u0 : State square) (h0 : u0 ∈ (Submodule.pi Set.univ fun _ => linears).prod linears) :
    ∃ k2 k3 : State square, ∃ U : ℝ → State square, U 0 = u0 ∧ ∀ dt, 0 ≤ dt → ∀ u : ℕ → State square, u 0 = u0 →
      (∀ n, ThetaStep (swe Swe.exTerm calm fun _ => none) (swe Swe.exTerm calm fun _ => none) dt 1 true
        ((Submodule.pi Set.univ fun _ => linears).prod linears) (u n) (u (n + 1))) → ∀ n : ℕ,
          dist 10 10 (U (n * dt)) (u n) ≤
            n * dt * ((1 - 1 / 2) * dt * Real.sqrt (waveEnergy 10 10 k2) + dt ^ 2 / 12 * Real.sqrt (waveEnergy 10 10 k3)) := by
  have hw : ∀ c : square.C, 0 < square.wC c := fun c => show (0 : ℝ) < 1 / 6 by norm_num
  have T := fun x => (C128_tendency _ _ _ calm_basin.hasEnergy (Basin.linearEqn calm_basin ⟨rfl, rfl, fun _ => rfl⟩)
    (Contract.Basin.definite calm_basin linears_pair hw) calm_basin.onto 1 x).exists
  obtain ⟨k1, t1⟩ := T u0
  obtain ⟨k2, t2⟩ := T k1
  obtain ⟨k3, t3⟩ := T k2
  obtain ⟨k4, t4⟩ := T k3
  obtain ⟨U, a, -, -, d, -⟩ := C149_waves calm_basin rfl rfl linears_pair hw inferInstance u0 k1 k2 k3 k4 h0 t1 t2 t3 t4
  exact ⟨k2, k3, U, a, fun dt hdt u hu h n => d 1 true dt (by norm_num) le_rfl hdt u hu h n⟩

/-- And for diffusion on the square. -/
example (u0 k1 k2 k3 k4 : Sc square) (h0 : u0 ∈ linears)
    (t1 : Tendency (tracer2 Tracer2.exTerm { Tracer2.exFlow with uv := some fun _ => cst square 0 }
      (some (squareField ⟨1, 0, 0, 0, 0, 0⟩ ⟨5, 0, 0, 0, 0, 0⟩)) fun _ => none) 1 linears u0 k1)
    (t2 : Tendency (tracer2 Tracer2.exTerm { Tracer2.exFlow with uv := some fun _ => cst square 0 }
      (some (squareField ⟨1, 0, 0, 0, 0, 0⟩ ⟨5, 0, 0, 0, 0, 0⟩)) fun _ => none) 1 linears k1 k2)
    (t3 : Tendency (tracer2 Tracer2.exTerm { Tracer2.exFlow with uv := some fun _ => cst square 0 }
      (some (squareField ⟨1, 0, 0, 0, 0, 0⟩ ⟨5, 0, 0, 0, 0, 0⟩)) fun _ => none) 1 linears k2 k3)
    (t4 : Tendency (tracer2 Tracer2.exTerm { Tracer2.exFlow with uv := some fun _ => cst square 0 }
      (some (squareField ⟨1, 0, 0, 0, 0, 0⟩ ⟨5, 0, 0, 0, 0, 0⟩)) fun _ => none) 1 linears k3 k4) :
    ∃ U : ℝ → Sc square, U 0 = u0 ∧ ∀ dt, 0 ≤ dt → ∀ u : ℕ → Sc square, u 0 = u0 →
      (∀ n, ThetaStep (tracer2 Tracer2.exTerm { Tracer2.exFlow with uv := some fun _ => cst square 0 }
        (some (squareField ⟨1, 0, 0, 0, 0, 0⟩ ⟨5, 0, 0, 0, 0, 0⟩)) fun _ => none)
        (tracer2 Tracer2.exTerm { Tracer2.exFlow with uv := some fun _ => cst square 0 }
        (some (squareField ⟨1, 0, 0, 0, 0, 0⟩ ⟨5, 0, 0, 0, 0, 0⟩)) fun _ => none) dt (1 / 2) true linears (u n) (u (n + 1))) →
      ∀ n : ℕ, rms (U (n * dt)) (u n) ≤ n * dt * ((1 / 2 - 1 / 2) * dt * rms k2 0 + dt ^ 2 / 12 * rms k3 0) := by
  obtain ⟨U, a, -, -, d, -⟩ := C149_tracer exCarried (fun _ => trivial) linears_ext (fun c => show (0 : ℝ) < 1 / 6 by norm_num) inferInstance
    u0 k1 k2 k3 k4 h0 t1 t2 t3 t4
  exact ⟨U, a, fun dt hdt u hu h n => d (1 / 2) true dt le_rfl (by norm_num) hdt u hu h n⟩

end Verif.Accum
