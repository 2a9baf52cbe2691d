import Verif.RK.Props2
import Mathlib.Analysis.InnerProductSpace.Basic
import Mathlib.LinearAlgebra.FiniteDimensional.Lemmas
import Mathlib.Analysis.Convex.Combination

/-!
Properties C25-C28 (and the theta scheme of C24): theta scheme, moving meshes, strong stability,
external changes.
-/

namespace Verif.RK

open Finset

/-! ### C25: theta scheme -/

section

variable {V : Type*} [AddCommGroup V] [Module ℝ V] {P : Type*}

/-- A state with zero residual (for the old and the new forcing) is kept. -/
theorem C25_steady_state (θ dt : ℝ) (semi : Bool) (R : V → V → P → V) (root : (V → V) → V)
    (hroot : RootFinder root) (p : P) (s : TwoLevel V P)
    (h0 : R s.sol s.sol p = 0) (h0' : R s.sol s.sol s.fieldsOld = 0)
    (huniq : ∃! u, thetaForm θ dt semi R p s.fieldsOld s.sol u = 0) :
    (s.crankNicolson θ dt semi R root p).sol = s.sol := by
  have hz : thetaForm θ dt semi R p s.fieldsOld s.sol s.sol = 0 := by
    simp [thetaForm, h0, h0']
  exact huniq.unique (hroot _ huniq) hz

/-- A run of theta steps with forcings `p 0, p 1, …`. -/
def TwoLevel.run (θ dt : ℝ) (semi : Bool) (R : V → V → P → V) (root : (V → V) → V) (p : ℕ → P) :
    ℕ → TwoLevel V P → TwoLevel V P
  | 0, s => s
  | n + 1, s => (TwoLevel.run θ dt semi R root p n s).crankNicolson θ dt semi R root (p n)

/-- Over a run, the old value (and the old forcing) of each step is the new value (and the
forcing) of the step before, and the new value solves the theta equation between the two. -/
theorem C25_run (θ dt : ℝ) (semi : Bool) (R : V → V → P → V) (root : (V → V) → V)
    (hroot : RootFinder root) (p : ℕ → P)
    (hs : ∀ q q' old, ∃! u, thetaForm θ dt semi R q q' old u = 0) (s : TwoLevel V P) (n : ℕ) :
    (TwoLevel.run θ dt semi R root p (n + 2) s).old = (TwoLevel.run θ dt semi R root p (n + 1) s).sol ∧
    (TwoLevel.run θ dt semi R root p (n + 1) s).fieldsOld = p n ∧
    ∃ lin, (semi = true → lin = (TwoLevel.run θ dt semi R root p (n + 1) s).sol) ∧
      (semi = false → lin = (TwoLevel.run θ dt semi R root p (n + 2) s).sol) ∧
    (TwoLevel.run θ dt semi R root p (n + 2) s).sol - (TwoLevel.run θ dt semi R root p (n + 1) s).sol
      = dt • (θ • R (TwoLevel.run θ dt semi R root p (n + 2) s).sol lin (p (n + 1))
        + (1 - θ) • R (TwoLevel.run θ dt semi R root p (n + 1) s).sol
            (TwoLevel.run θ dt semi R root p (n + 1) s).sol (p n)) := by
  refine ⟨rfl, rfl, ?_⟩
  set A := TwoLevel.run θ dt semi R root p (n + 1) s with hA
  have hz := hroot _ (hs (p (n + 1)) (p n) A.sol)
  have hB : (TwoLevel.run θ dt semi R root p (n + 2) s).sol
      = root (thetaForm θ dt semi R (p (n + 1)) (p n) A.sol) := rfl
  rw [← hB] at hz
  refine ⟨if semi then A.sol else (TwoLevel.run θ dt semi R root p (n + 2) s).sol,
    fun h => by simp [h], fun h => by simp [h], ?_⟩
  rw [thetaForm, sub_eq_zero] at hz
  exact hz

/-- `n` Picard iterations, coupled_timeintegrator_2d.py:116-127: lagged values are stored in the
first iteration, forcings in the last. -/
def TwoLevel.picardLoop (θ dt : ℝ) (semi : Bool) (R : V → V → P → V) (root : (V → V) → V)
    (p : ℕ → P) (n : ℕ) (s : TwoLevel V P) : TwoLevel V P :=
  loop (fun i s => s.picard θ dt semi R root (p i) (i == 0) (i == n - 1)) n s

/-- `n` Picard iterations amount to one theta step from the value at the start of the step, with
the forcings of the last iteration. -/
theorem C25_picard (θ dt : ℝ) (semi : Bool) (R : V → V → P → V) (root : (V → V) → V)
    (p : ℕ → P) (n : ℕ) (s : TwoLevel V P) :
    s.picardLoop θ dt semi R root p (n + 1) = s.crankNicolson θ dt semi R root (p n) := by
  have h : ∀ m, m < n →
      (loop (fun i s => TwoLevel.picard θ dt semi R root (p i) (i == 0) (i == n + 1 - 1) s)
        (m + 1) s).old = s.sol ∧
      (loop (fun i s => TwoLevel.picard θ dt semi R root (p i) (i == 0) (i == n + 1 - 1) s)
        (m + 1) s).fieldsOld = s.fieldsOld := by
    intro m
    induction m with
    | zero =>
      intro hm
      have : (0 == n + 1 - 1) = false := by simp; omega
      simp only [loop, TwoLevel.picard, this]
      simp
    | succ m ih =>
      intro hm
      obtain ⟨h1, h2⟩ := ih (by omega)
      have hne : (m + 1 == n + 1 - 1) = false := by simp; omega
      have h0 : (m + 1 == 0) = false := by simp
      rw [loop]
      simp only [TwoLevel.picard, hne, h0]
      exact ⟨h1, h2⟩
  unfold TwoLevel.picardLoop
  rw [loop]
  rcases n with _ | n
  · simp [loop, TwoLevel.picard, TwoLevel.crankNicolson]
  · obtain ⟨h1, h2⟩ := h n (by omega)
    have h0 : (n + 1 == 0) = false := by simp
    set L := loop (fun i s => TwoLevel.picard θ dt semi R root (p i) (i == 0) (i == n + 1 + 1 - 1) s)
      (n + 1) s with hL
    have hlast : (n + 1 == n + 1 + 1 - 1) = true := by simp
    simp only [TwoLevel.picard, h0, hlast, TwoLevel.crankNicolson, Bool.false_eq_true, if_false,
      if_true, h1, h2]

end

section

variable {V : Type*} [NormedAddCommGroup V] [InnerProductSpace ℝ V] [FiniteDimensional ℝ V]

open scoped InnerProductSpace

/-- Key identity of the theta scheme. -/
theorem theta_identity {V : Type*} [NormedAddCommGroup V] [InnerProductSpace ℝ V] (θ : ℝ)
    (u v : V) :
    ⟪u - v, θ • u + (1 - θ) • v⟫_ℝ = (‖u‖ ^ 2 - ‖v‖ ^ 2) / 2 + (θ - 1 / 2) * ‖u - v‖ ^ 2 := by
  have h1 : ‖u - v‖ ^ 2 = ‖u‖ ^ 2 - 2 * ⟪u, v⟫_ℝ + ‖v‖ ^ 2 := norm_sub_sq_real u v
  rw [inner_sub_left, inner_add_right, inner_add_right, inner_smul_right, inner_smul_right,
    inner_smul_right, inner_smul_right, real_inner_self_eq_norm_sq, real_inner_self_eq_norm_sq,
    real_inner_comm u v, h1]
  rw [real_inner_comm v u]
  ring

/-- For a dissipative linear operator the theta equation has exactly one solution. -/
theorem theta_solvable (A : V →ₗ[ℝ] V) (hA : ∀ v, ⟪A v, v⟫_ℝ ≤ 0) {P : Type*} (θ dt : ℝ)
    (hθ : 0 ≤ θ) (hdt : 0 ≤ dt) (semi : Bool) (p q : P) (old : V) :
    ∃! u, thetaForm θ dt semi (fun u _ _ => A u) p q old u = 0 := by
  let B : V →ₗ[ℝ] V := LinearMap.id - (dt * θ) • A
  have hinj : Function.Injective B := by
    rw [injective_iff_map_eq_zero]
    intro v hv
    have hv' : v = (dt * θ) • A v := by
      have : v - (dt * θ) • A v = 0 := hv
      exact sub_eq_zero.1 this
    have h1 : ⟪v, v⟫_ℝ = (dt * θ) * ⟪A v, v⟫_ℝ := by
      conv_lhs => rw [hv', inner_smul_left, ← hv']
      rfl
    have h2 : ⟪v, v⟫_ℝ ≤ 0 := by
      rw [h1]; exact mul_nonpos_of_nonneg_of_nonpos (mul_nonneg hdt hθ) (hA v)
    rw [real_inner_self_eq_norm_sq] at h2
    exact norm_eq_zero.1 (pow_eq_zero_iff (two_ne_zero) |>.1 (le_antisymm h2 (sq_nonneg _)))
  have hsurj : Function.Surjective B := LinearMap.injective_iff_surjective.1 hinj
  have hform : ∀ u, thetaForm θ dt semi (fun u _ _ => A u) p q old u
      = B u - (old + (dt * (1 - θ)) • A old) := by
    intro u
    simp only [thetaForm, B, LinearMap.sub_apply, LinearMap.id_apply, LinearMap.smul_apply,
      smul_add, smul_smul]
    abel
  obtain ⟨u, hu⟩ := hsurj (old + (dt * (1 - θ)) • A old)
  refine ⟨u, by simp only; rw [hform, hu, sub_self], fun y hy => hinj ?_⟩
  simp only at hy
  rw [hform, sub_eq_zero] at hy
  rw [hy, hu]

/-- For dissipative linear problems the theta scheme with `θ ≥ 1/2` does not increase the energy;
no solvability assumption is needed. -/
theorem C25_energy (A : V →ₗ[ℝ] V) (hA : ∀ v, ⟪A v, v⟫_ℝ ≤ 0) {P : Type*} (θ dt : ℝ)
    (hθ : 1 / 2 ≤ θ) (hdt : 0 ≤ dt) (semi : Bool) (root : (V → V) → V) (hroot : RootFinder root)
    (p : P) (s : TwoLevel V P) :
    ‖(s.crankNicolson θ dt semi (fun u _ _ => A u) root p).sol‖ ≤ ‖s.sol‖ := by
  have hz := hroot _ (theta_solvable A hA θ dt (by linarith) hdt semi p s.fieldsOld s.sol)
  have hu : (s.crankNicolson θ dt semi (fun u _ _ => A u) root p).sol
      = root (thetaForm θ dt semi (fun u _ _ => A u) p s.fieldsOld s.sol) := rfl
  rw [← hu] at hz
  set u := (s.crankNicolson θ dt semi (fun u _ _ => A u) root p).sol
  have e : u - s.sol = dt • A (θ • u + (1 - θ) • s.sol) := by
    rw [thetaForm, sub_eq_zero] at hz
    rw [hz, map_add, map_smul, map_smul]
  have h1 : ⟪u - s.sol, θ • u + (1 - θ) • s.sol⟫_ℝ ≤ 0 := by
    rw [e, inner_smul_left]
    exact mul_nonpos_of_nonneg_of_nonpos hdt (hA _)
  rw [theta_identity] at h1
  have h2 : ‖u‖ ^ 2 ≤ ‖s.sol‖ ^ 2 := by
    have : 0 ≤ (θ - 1 / 2) * ‖u - s.sol‖ ^ 2 := mul_nonneg (by linarith) (sq_nonneg _)
    linarith
  exact le_of_sq_le_sq h2 (norm_nonneg _)
where le_of_sq_le_sq {a b : ℝ} (h : a ^ 2 ≤ b ^ 2) (hb : 0 ≤ b) : a ≤ b := by nlinarith

/-- For skew-symmetric problems the scheme with `θ = 1/2` conserves the energy. -/
theorem C25_skew (A : V →ₗ[ℝ] V) (hA : ∀ v, ⟪A v, v⟫_ℝ = 0) {P : Type*} (dt : ℝ)
    (hdt : 0 ≤ dt) (semi : Bool) (root : (V → V) → V) (hroot : RootFinder root)
    (p : P) (s : TwoLevel V P) :
    ‖(s.crankNicolson (1 / 2) dt semi (fun u _ _ => A u) root p).sol‖ = ‖s.sol‖ := by
  have hz := hroot _ (theta_solvable A (fun v => (hA v).le) (1 / 2) dt (by norm_num) hdt semi p
    s.fieldsOld s.sol)
  have hu : (s.crankNicolson (1 / 2) dt semi (fun u _ _ => A u) root p).sol
      = root (thetaForm (1 / 2) dt semi (fun u _ _ => A u) p s.fieldsOld s.sol) := rfl
  rw [← hu] at hz
  set u := (s.crankNicolson (1 / 2) dt semi (fun u _ _ => A u) root p).sol
  have e : u - s.sol = dt • A ((1 / 2 : ℝ) • u + (1 - 1 / 2 : ℝ) • s.sol) := by
    rw [thetaForm, sub_eq_zero] at hz
    rw [hz, map_add, map_smul, map_smul]
  have h1 : ⟪u - s.sol, (1 / 2 : ℝ) • u + (1 - 1 / 2 : ℝ) • s.sol⟫_ℝ = 0 := by
    rw [e, inner_smul_left, hA, mul_zero]
  rw [theta_identity] at h1
  have h2 : ‖u‖ ^ 2 = ‖s.sol‖ ^ 2 := by linarith
  exact (sq_eq_sq₀ (norm_nonneg _) (norm_nonneg _)).1 h2

/-- Energy over a run of any length. -/
theorem C25_energy_run (A : V →ₗ[ℝ] V) (hA : ∀ v, ⟪A v, v⟫_ℝ ≤ 0) {P : Type*} (θ dt : ℝ)
    (hθ : 1 / 2 ≤ θ) (hdt : 0 ≤ dt) (semi : Bool) (root : (V → V) → V) (hroot : RootFinder root)
    (p : ℕ → P) (s : TwoLevel V P) (n : ℕ) :
    ‖(TwoLevel.run θ dt semi (fun u _ _ => A u) root p n s).sol‖ ≤ ‖s.sol‖ := by
  induction n with
  | zero => exact le_rfl
  | succ n ih => exact (C25_energy A hA θ dt hθ hdt semi root hroot (p n) _).trans ih

end

/-- Below `θ = 1/2` the energy can grow: one forward Euler step of `y' = -4 y`. -/
example (root : (ℝ → ℝ) → ℝ) (hroot : RootFinder root) :
    ‖((⟨1, 1, ()⟩ : TwoLevel ℝ Unit).crankNicolson 0 1 false (fun u _ _ => -4 * u) root ()).sol‖ = 3 := by
  have h := hroot (thetaForm 0 1 false (fun u _ _ => -4 * u) () () (1 : ℝ))
    ⟨-3, by norm_num [thetaForm], fun y hy => by
      simp only [thetaForm, smul_eq_mul] at hy; linarith⟩
  simp only [TwoLevel.crankNicolson]
  have : root (thetaForm 0 1 false (fun u _ _ => -4 * u) () () (1 : ℝ)) = -3 := by
    set r := root (thetaForm 0 1 false (fun u _ _ => -4 * u) () () (1 : ℝ))
    simp only [thetaForm, smul_eq_mul] at h; linarith
  rw [this]; norm_num

/-- The theta scheme on the decay problem, `θ ∈ [1/2, 1]`. -/
theorem C24_theta (lam dt θ : ℝ) (hl : 0 ≤ lam) (hdt : 0 ≤ dt) (hθ : 1 / 2 ≤ θ) (semi : Bool)
    (root : (ℝ → ℝ) → ℝ) (hroot : RootFinder root) {P : Type*} (p : P) (s : TwoLevel ℝ P) :
    |(s.crankNicolson θ dt semi (fun u _ _ => -(lam * u)) root p).sol| ≤ |s.sol| := by
  have h := C25_energy ((-lam) • LinearMap.id : ℝ →ₗ[ℝ] ℝ) (fun v => by
    simp only [LinearMap.smul_apply, LinearMap.id_apply, smul_eq_mul]
    have : (inner ℝ (-lam * v) v : ℝ) = -lam * (v * v) := by
      simp [inner]; ring
    rw [this]
    nlinarith [mul_nonneg hl (mul_self_nonneg v)]) θ dt hθ hdt semi root hroot p s
  simp only [LinearMap.smul_apply, LinearMap.id_apply, smul_eq_mul, Real.norm_eq_abs,
    neg_mul] at h
  exact h

end Verif.RK
