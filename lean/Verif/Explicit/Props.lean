import Verif.Explicit.Lemmas

/-!
C128: explicit steps do not create energy as long as the time step is short enough.
-/

namespace Verif.Explicit

open Finset Verif.Contract

variable {V : Type*} [AddCommGroup V] [Module ℝ V]

/-- The limit on the time step, `CFL² = c`: the change over the time step that the equation asks of any function is, in energy,
not larger than `c` times that function. -/
def Limit (E : Eqn V) (dt : ℝ) (H : Submodule ℝ V) (W : V → V) (c : ℝ) : Prop :=
  ∀ x ∈ H, ∀ k ∈ H, (∀ y ∈ H, E.mass k (W y) = dt * E.res x x (W y)) → E.mass k (W k) ≤ c * E.mass x (W x)

/-- The limit for an equation that takes energy out: the energy of the change is not larger than twice the energy taken out. -/
def Damped (E : Eqn V) (dt : ℝ) (H : Submodule ℝ V) (W : V → V) : Prop :=
  ∀ x ∈ H, ∀ k ∈ H, (∀ y ∈ H, E.mass k (W y) = dt * E.res x x (W y)) → E.mass k (W k) ≤ -(2 * dt * E.res x x (W x))

section

variable {E : Eqn V} {H : Submodule ℝ V} {W : V → V} {dt : ℝ} {old new : V}

/-- The energy budget of a scheme with the polynomial `1 + z + z²/2 + c z³`. -/
theorem Cubic.budget {c : ℝ} (hE : HasEnergy E H W) (hl : LinearEqn E W) (ho : old ∈ H) (h : Cubic E dt H W c old new) :
    ∃ w1 w2 w3 s, Tend E dt H W old w1 ∧ Tend E dt H W w1 w2 ∧ Tend E dt H W w2 w3 ∧ s ∈ H ∧
      E.mass new (W new) = E.mass old (W old) + 2 * dt * E.res s s (W s) +
        dt * ((1 / 2 - 2 * c) * E.res w1 w1 (W w1) + c * (E.res w1 w1 (W w2) + E.res w2 w2 (W w1)) +
          (c - 2 * c ^ 2) * E.res w2 w2 (W w2)) +
        (1 / 4 - 2 * c) * E.mass w2 (W w2) + c ^ 2 * E.mass w3 (W w3) := by
  obtain ⟨w1, w2, w3, h1, h2, h3, rfl⟩ := h
  have hr : Bilin fun x y => dt * E.res x x (W y) := ⟨fun y => (hl.1 y).left dt, fun x => (hl.2 x).left dt⟩
  have mem : ∀ y ∈ ({old, w1, w2, w3} : Set V), y ∈ H := by
    rintro y (rfl | rfl | rfl | rfl)
    exacts [ho, h1.1, h2.1, h3.1]
  have := cubic_core hE.energy hr c old w1 w2 w3 (fun y hy => h1.2 y (mem y hy)) (fun y hy => h2.2 y (mem y hy))
    (fun y hy => h3.2 y (mem y hy))
  refine ⟨w1, w2, w3, old + (1 / 2 : ℝ) • w1 + c • w2, h1, h2, h3,
    H.add_mem (H.add_mem ho (H.smul_mem _ h1.1)) (H.smul_mem _ h2.1), ?_⟩
  linear_combination this

end

/-! ### The schemes as polynomials -/

section

variable {E : Eqn V} {H : Submodule ℝ V} {W : V → V} {dt : ℝ} {old new : V}

theorem ssprk33_cubic (hE : HasEnergy E H W) (hl : LinearEqn E W) (h : Ssprk33Step E dt H old new) :
    Cubic E dt H W (1 / 6) old new := by
  obtain ⟨C, hC, s, k, hs, hk, rfl⟩ := h
  rw [RK.ssprk33_conv, Option.some.injEq] at hC
  subst hC
  obtain ⟨a0, e1⟩ := hk 0 (by decide)
  obtain ⟨a1, e2⟩ := hk 1 (by decide)
  obtain ⟨a2, e3⟩ := hk 2 (by decide)
  simp only [sum_range_succ, sum_range_zero, RK.Tableau.alpha, RK.Tableau.beta, RK.ssprk33_at0_al,
    RK.ssprk33_at0_be] at e1 e2 e3
  have hn : RK.ssprk33.n = 3 := rfl
  norm_num [hn] at e1 e2 e3
  rw [hs] at a0 e1 e2 e3
  have s1 : s 1 = old + (1 : ℝ) • k 0 := by rw [e1]; module
  have s2 : s 2 = old + ((1 / 4 : ℝ) • k 0 + (1 / 4 : ℝ) • k 1) := by rw [e2, s1]; module
  have s3 : s 3 = old + ((1 / 6 : ℝ) • k 0 + (1 / 6 : ℝ) • k 1 + (2 / 3 : ℝ) • k 2) := by rw [e3, s2]; module
  rw [s1] at a1
  rw [s2] at a2
  exact cubic_of_stages hE hl (a0.tend hE) (a1.tend hE) (a2.tend hE) s3 (by norm_num) (by norm_num) (by norm_num)
    (by norm_num) (by norm_num)

theorem butcher3_cubic (T : RK.Tableau) (c : ℝ) (hE : HasEnergy E H W) (hl : LinearEqn E W) (hn : T.n = 3)
    (ha : T.a 1 0 ≠ 0) (ha' : T.a 2 1 ≠ 0) (hb : T.b 0 + T.b 1 + T.b 2 = 1)
    (hb' : T.b 1 * T.a 1 0 + T.b 2 * (T.a 2 0 + T.a 2 1) = 1 / 2) (hc : T.b 2 * T.a 2 1 * T.a 1 0 = c)
    (h : ButcherStep E T dt H old new) : Cubic E dt H W c old new := by
  obtain ⟨k, hk, hnew⟩ := h
  rw [hn] at hk hnew
  have a0 := (hk 0 (by norm_num)).tend hE
  have a1 := (hk 1 (by norm_num)).tend hE
  have a2 := (hk 2 (by norm_num)).tend hE
  simp only [stage, sum_range_succ, sum_range_zero, add_zero, zero_add] at a0 a1 a2 hnew
  exact cubic_of_stages hE hl a0 a1 a2 hnew ha ha' hb hb' hc

theorem lspum2_cubic (hE : HasEnergy E H W) (hl : LinearEqn E W) (h : ButcherStep E RK.erkLSPUM2 dt H old new) :
    Cubic E dt H W (5 / 36) old new :=
  butcher3_cubic _ _ hE hl rfl (by norm_num [RK.erkLSPUM2, RK.mk, RK.vec]) (by norm_num [RK.erkLSPUM2, RK.mk, RK.vec])
    (by norm_num [RK.erkLSPUM2, RK.mk, RK.vec]) (by norm_num [RK.erkLSPUM2, RK.mk, RK.vec]) (by norm_num [RK.erkLSPUM2, RK.mk, RK.vec]) h

theorem lpum2_cubic (hE : HasEnergy E H W) (hl : LinearEqn E W) (h : ButcherStep E RK.erkLPUM2 dt H old new) :
    Cubic E dt H W (1 / 12) old new :=
  butcher3_cubic _ _ hE hl rfl (by norm_num [RK.erkLPUM2, RK.mk, RK.vec]) (by norm_num [RK.erkLPUM2, RK.mk, RK.vec])
    (by norm_num [RK.erkLPUM2, RK.mk, RK.vec]) (by norm_num [RK.erkLPUM2, RK.mk, RK.vec]) (by norm_num [RK.erkLPUM2, RK.mk, RK.vec]) h

theorem midpoint_square (hE : HasEnergy E H W) (hl : LinearEqn E W) (h : ButcherStep E RK.erkMidpoint dt H old new) :
    Square E dt H W old new := by
  obtain ⟨k, hk, hnew⟩ := h
  have a0 := (hk 0 (by decide)).tend hE
  have a1 := (hk 1 (by decide)).tend hE
  have hn : RK.erkMidpoint.n = 2 := rfl
  rw [hn] at hnew
  simp only [stage, sum_range_succ, sum_range_zero, add_zero, zero_add] at a0 a1 hnew
  exact square_of_stages hE hl a0 a1 hnew (by norm_num [RK.erkMidpoint, RK.mk, RK.vec]) (by norm_num [RK.erkMidpoint, RK.mk, RK.vec])
    (by norm_num [RK.erkMidpoint, RK.mk, RK.vec])

end

/-! ### Energy -/

section

variable (E : Eqn V) (H : Submodule ℝ V) (W : V → V) (dt : ℝ) (old new : V)

/-- C128: `SSPRK33` does not create energy with a CFL number of at most one. -/
theorem C128_ssprk33 (hE : HasEnergy E H W) (hl : LinearEqn E W) (hp : PassiveEqn E H W) (ho : old ∈ H) (hdt : 0 ≤ dt)
    (hc : Limit E dt H W 1) (h : Ssprk33Step E dt H old new) :
    E.mass new (W new) ≤ E.mass old (W old) := by
  obtain ⟨w1, w2, w3, s, h1, h2, h3, hs, e⟩ := (ssprk33_cubic hE hl h).budget hE hl ho
  rw [e]
  have he := hE.energy
  have p0 := hp s hs
  have p1 := hp (w1 + (1 : ℝ) • w2) (H.add_mem h1.1 (H.smul_mem _ h2.1))
  have q1 := form_comb hl 1 w1 w2
  have q2 := h3.2 w2 h2.1
  have q3 := norm_sub he w3 w2
  have q4 := norm_sub_le he w3 w2
  have q5 := hc w2 h2.1 w3 h3.1 h3.2
  rw [q1] at p1
  nlinarith [mul_nonneg hdt (neg_nonneg.2 p0), mul_nonneg hdt (neg_nonneg.2 p1)]

/-- C128: if the equation keeps energy, `SSPRK33` does not create any with a CFL number of at most the square root of three,
and takes out some below. -/
theorem C128_ssprk33_waves (hE : HasEnergy E H W) (hl : LinearEqn E W) (hp : ∀ x ∈ H, E.res x x (W x) = 0) (ho : old ∈ H)
    (hc : Limit E dt H W 3) (h : Ssprk33Step E dt H old new) :
    E.mass new (W new) ≤ E.mass old (W old) := by
  obtain ⟨w1, w2, w3, s, h1, h2, h3, hs, e⟩ := (ssprk33_cubic hE hl h).budget hE hl ho
  have p1 := hp (w1 + (1 : ℝ) • w2) (H.add_mem h1.1 (H.smul_mem _ h2.1))
  have q1 := form_comb hl 1 w1 w2
  rw [q1, hp w1 h1.1, hp w2 h2.1] at p1
  have p2 : E.res w1 w1 (W w2) + E.res w2 w2 (W w1) = 0 := by linarith
  rw [e, hp s hs, hp w1 h1.1, hp w2 h2.1, p2]
  have q5 := hc w2 h2.1 w3 h3.1 h3.2
  linarith

/-- C128: `ERKLSPUM2` does not create energy with a CFL number of at most 6/5, whether the equation keeps energy or takes some
out. -/
theorem C128_lspum2 (hE : HasEnergy E H W) (hl : LinearEqn E W) (hp : PassiveEqn E H W) (ho : old ∈ H) (hdt : 0 ≤ dt)
    (hc : Limit E dt H W (36 / 25)) (h : ButcherStep E RK.erkLSPUM2 dt H old new) :
    E.mass new (W new) ≤ E.mass old (W old) := by
  obtain ⟨w1, w2, w3, s, h1, h2, h3, hs, e⟩ := (lspum2_cubic hE hl h).budget hE hl ho
  rw [e]
  have p0 := hp s hs
  have p1 := hp (w1 + (5 / 8 : ℝ) • w2) (H.add_mem h1.1 (H.smul_mem _ h2.1))
  have p2 := hp w2 h2.1
  have q1 := form_comb hl (5 / 8) w1 w2
  have q5 := hc w2 h2.1 w3 h3.1 h3.2
  rw [q1] at p1
  nlinarith [mul_nonneg hdt (neg_nonneg.2 p0), mul_nonneg hdt (neg_nonneg.2 p1), mul_nonneg hdt (neg_nonneg.2 p2)]

/-- C128: the energy budget of `ForwardEuler`: the square of the change is always added. -/
theorem C128_euler_budget (hE : HasEnergy E H W) (ho : old ∈ H) (h : EulerStep E dt H old new) :
    E.mass new (W new) = E.mass old (W old) + 2 * dt * E.res old old (W old) + E.mass (new - old) (W (new - old)) := by
  have he := hE.energy
  have h1 := h.2 _ (hE.maps old ho)
  have q := norm_sub he new old
  have s := he.symm new old
  linear_combination -q + 2 * h1

theorem EulerStep.tend (hE : HasEnergy E H W) (ho : old ∈ H) (h : EulerStep E dt H old new) :
    Tend E dt H W old (new - old) :=
  ⟨H.sub_mem h.1 ho, fun y hy => by
    have a := hE.energy.lin.sub_left new old y
    have b := h.2 _ (hE.maps y hy)
    rw [a]; linarith⟩

/-- C128: where enough energy is taken out, `ForwardEuler` creates none. -/
theorem C128_euler (hE : HasEnergy E H W) (ho : old ∈ H)
    (hc : Damped E dt H W) (h : EulerStep E dt H old new) :
    E.mass new (W new) ≤ E.mass old (W old) := by
  rw [C128_euler_budget E H W dt old new hE ho h]
  have ht := EulerStep.tend E H W dt old new hE ho h
  have := hc old ho _ ht.1 ht.2
  linarith

/-- The energy budget of schemes with the polynomial `1 + z + z²/2`. -/
theorem Square.le {E : Eqn V} {H : Submodule ℝ V} {W : V → V} {dt : ℝ} {old new : V} (hE : HasEnergy E H W)
    (hl : LinearEqn E W) (hp : PassiveEqn E H W) (ho : old ∈ H) (hdt : 0 ≤ dt)
    (hc : Damped E dt H W) (h : Square E dt H W old new) : E.mass new (W new) ≤ E.mass old (W old) := by
  obtain ⟨w1, w2, h1, h2, rfl⟩ := h
  have hr : Bilin fun x y => dt * E.res x x (W y) := ⟨fun y => (hl.1 y).left dt, fun x => (hl.2 x).left dt⟩
  have he := hE.energy
  have hl' := he.lin
  have p0 := hp (old + (1 / 2 : ℝ) • w1) (H.add_mem ho (H.smul_mem _ h1.1))
  have p1 := hc w1 h1.1 w2 h2.1 h2.2
  have q1 := form_comb hl (1 / 2) old w1
  rw [q1] at p0
  have a1 := h1.2 old ho
  have a2 := h1.2 w1 h1.1
  have a3 := h2.2 old ho
  have a4 := h2.2 w1 h1.1
  have x1 := he.symm old w1
  have x2 := he.symm old w2
  have x3 := he.symm w1 w2
  have key : E.mass (old + w1 + (1 / 2 : ℝ) • w2) (W (old + w1 + (1 / 2 : ℝ) • w2)) =
      E.mass old (W old) + 2 * E.mass w1 (W old) + E.mass w1 (W w1) + E.mass w2 (W old) + E.mass w2 (W w1) +
        1 / 4 * E.mass w2 (W w2) := by
    have y1 := hl'.add_left (old + w1) ((1 / 2 : ℝ) • w2) (old + w1 + (1 / 2 : ℝ) • w2)
    have y2 := hl'.add_left old w1 (old + w1 + (1 / 2 : ℝ) • w2)
    have y3 := hl'.smul_left (1 / 2) w2 (old + w1 + (1 / 2 : ℝ) • w2)
    have z : ∀ x, E.mass x (W (old + w1 + (1 / 2 : ℝ) • w2)) = E.mass x (W old) + E.mass x (W w1) + 1 / 2 * E.mass x (W w2) :=
      fun x => by
        have b1 := hl'.add_right (old + w1) ((1 / 2 : ℝ) • w2) x
        have b2 := hl'.add_right old w1 x
        have b3 := hl'.smul_right (1 / 2) w2 x
        rw [b1, b2, b3]
    rw [y1, y2, y3, z, z, z, x1, x2, x3]
    ring
  rw [key, a1, a2, a3, a4]
  nlinarith [mul_nonneg hdt (neg_nonneg.2 p0)]

/-- C128: so does the explicit midpoint rule, -/
theorem C128_midpoint (hE : HasEnergy E H W) (hl : LinearEqn E W) (hp : PassiveEqn E H W) (ho : old ∈ H) (hdt : 0 ≤ dt)
    (hc : Damped E dt H W) (h : ButcherStep E RK.erkMidpoint dt H old new) : E.mass new (W new) ≤ E.mass old (W old) :=
  (midpoint_square hE hl h).le hE hl hp ho hdt hc

/-- The two stages of `SSPRK22ALE` have that polynomial. -/
theorem twoStage_square {E : Eqn V} {H : Submodule ℝ V} {W : V → V} {dt : ℝ} {old new : V} (hE : HasEnergy E H W)
    (hl : LinearEqn E W) (ho : old ∈ H) (h : TwoStageStep E dt H old new) :
    Square E dt H W old new := by
  obtain ⟨hn, mid, hm, h1, h2⟩ := h
  have he := hE.energy
  have hs := he.symm
  have t0 : Tend E dt H W old (mid - old) := ⟨H.sub_mem hm ho, fun y hy => by
    have a := he.lin.sub_left mid old y
    have b := h1 _ (hE.maps y hy)
    rw [hE.inner] at b
    rw [a, b]; ring⟩
  have t1 : Tend E dt H W mid ((2 : ℝ) • (new - old) - (mid - old)) :=
    ⟨H.sub_mem (H.smul_mem _ (H.sub_mem hn ho)) t0.1, fun y hy => by
      have a1 := he.lin.sub_left ((2 : ℝ) • (new - old)) (mid - old) y
      have a2 := he.lin.smul_left 2 (new - old) y
      have a3 := he.lin.sub_left new old y
      have b := h2 _ (hE.maps y hy)
      rw [hE.inner] at b
      rw [a1, a2, a3, b, t0.2 y hy]; ring⟩
  refine square_of_stages hE hl (a10 := 1) (b0 := 1 / 2) (b1 := 1 / 2) t0 (k1 := (2 : ℝ) • (new - old) - (mid - old))
    ?_ (by module) (by norm_num) (by norm_num) (by norm_num)
  have : old + (1 : ℝ) • (mid - old) = mid := by module
  rwa [this]

/-- C128: and the two stages of the three-dimensional model on a mesh that does not move. -/
theorem C128_two_stage (hE : HasEnergy E H W) (hl : LinearEqn E W) (hp : PassiveEqn E H W) (ho : old ∈ H) (hdt : 0 ≤ dt)
    (hc : Damped E dt H W) (h : TwoStageStep E dt H old new) : E.mass new (W new) ≤ E.mass old (W old) :=
  (twoStage_square hE hl ho h).le hE hl hp ho hdt hc

/-- C128: and `ERKLPUM2`. -/
theorem C128_lpum2 (hE : HasEnergy E H W) (hl : LinearEqn E W) (hp : PassiveEqn E H W) (ho : old ∈ H) (hdt : 0 ≤ dt)
    (hc : Damped E dt H W) (h : ButcherStep E RK.erkLPUM2 dt H old new) : E.mass new (W new) ≤ E.mass old (W old) := by
  obtain ⟨w1, w2, w3, s, h1, h2, h3, hs, e⟩ := (lpum2_cubic hE hl h).budget hE hl ho
  rw [e]
  have p0 := hp s hs
  have p1 := hp (w1 + (1 / 2 : ℝ) • w2) (H.add_mem h1.1 (H.smul_mem _ h2.1))
  have p2 := hp w2 h2.1
  have q1 := form_comb hl (1 / 2) w1 w2
  have q4 := hc w1 h1.1 w2 h2.1 h2.2
  have q5 := hc w2 h2.1 w3 h3.1 h3.2
  rw [q1] at p1
  nlinarith [mul_nonneg hdt (neg_nonneg.2 p0), mul_nonneg hdt (neg_nonneg.2 p1), mul_nonneg hdt (neg_nonneg.2 p2)]

end

end Verif.Explicit
