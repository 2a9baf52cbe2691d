import Verif.Explicit.Model
import Verif.Contract.Props
import Verif.RK.Props

/-!
Lemmas for explicit steps: a step as a polynomial of the tendency, and its energy.
-/

namespace Verif.Explicit

open Finset Verif.Contract

variable {V : Type*} [AddCommGroup V] [Module ℝ V]

/-- The energy of `u + w₁ + w₂/2 + c w₃`, where each `w` is the tendency of the one before. -/
theorem cubic_core {e r : V → V → ℝ} (he : IsEnergy e) (hr : Bilin r) (c : ℝ) (u w1 w2 w3 : V)
    (h1 : ∀ y ∈ ({u, w1, w2, w3} : Set V), e w1 y = r u y) (h2 : ∀ y ∈ ({u, w1, w2, w3} : Set V), e w2 y = r w1 y)
    (h3 : ∀ y ∈ ({u, w1, w2, w3} : Set V), e w3 y = r w2 y) :
    e (u + w1 + (1 / 2 : ℝ) • w2 + c • w3) (u + w1 + (1 / 2 : ℝ) • w2 + c • w3) = e u u +
      2 * r (u + (1 / 2 : ℝ) • w1 + c • w2) (u + (1 / 2 : ℝ) • w1 + c • w2) +
      (1 / 2 - 2 * c) * r w1 w1 + c * (r w1 w2 + r w2 w1) + (c - 2 * c ^ 2) * r w2 w2 +
      (1 / 4 - 2 * c) * e w2 w2 + c ^ 2 * e w3 w3 := by
  have hl := he.lin
  simp only [hl.add_left, hl.add_right, hl.smul_left, hl.smul_right, hr.add_left, hr.add_right, hr.smul_left, hr.smul_right]
  have m0 : u ∈ ({u, w1, w2, w3} : Set V) := by simp
  have m1 : w1 ∈ ({u, w1, w2, w3} : Set V) := by simp
  have m2 : w2 ∈ ({u, w1, w2, w3} : Set V) := by simp
  have m3 : w3 ∈ ({u, w1, w2, w3} : Set V) := by simp
  rw [← h1 u m0, ← h1 w1 m1, ← h1 w2 m2, ← h2 u m0, ← h2 w1 m1, ← h2 w2 m2, ← h3 u m0, ← h3 w1 m1, ← h3 w2 m2,
    he.symm u w1, he.symm u w2, he.symm u w3, he.symm w1 w2, he.symm w1 w3, he.symm w2 w3]
  ring

theorem norm_sub_le {e : V → V → ℝ} (he : IsEnergy e) (x y : V) : e (x - y) (x - y) ≤ 2 * e x x + 2 * e y y := by
  have h := he.nonneg (x + y)
  have hl := he.lin
  rw [hl.add_left, hl.add_right, hl.add_right] at h
  rw [hl.sub_left, hl.sub_right, hl.sub_right]
  linarith

theorem norm_sub {e : V → V → ℝ} (he : IsEnergy e) (x y : V) : e (x - y) (x - y) = e x x - 2 * e x y + e y y := by
  have hl := he.lin
  rw [hl.sub_left, hl.sub_right, hl.sub_right, he.symm y x]
  ring

/-- A form that is not positive, for a combination of two functions. -/
theorem form_comb {r : V → V → ℝ} (hr : Bilin r) (a : ℝ) (x y : V) :
    r (x + a • y) (x + a • y) = r x x + a * (r x y + r y x) + a ^ 2 * r y y := by
  rw [hr.add_left, hr.add_right, hr.add_right, hr.smul_left, hr.smul_left, hr.smul_right, hr.smul_right]
  ring

/-- The equation is linear: its coefficients do not depend on the solution. -/
def LinearEqn (E : Eqn V) (W : V → V) : Prop := Bilin fun x y => E.res x x (W y)

/-- Nothing in the equation adds energy. -/
def PassiveEqn (E : Eqn V) (H : Submodule ℝ V) (W : V → V) : Prop := ∀ x ∈ H, E.res x x (W x) ≤ 0

section

variable {E : Eqn V} {H : Submodule ℝ V} {W : V → V} {dt : ℝ}

/-- Tendencies tested with weights. -/
def Tend (E : Eqn V) (dt : ℝ) (H : Submodule ℝ V) (W : V → V) (x k : V) : Prop :=
  k ∈ H ∧ ∀ y ∈ H, E.mass k (W y) = dt * E.res x x (W y)

theorem Tendency.tend (hE : HasEnergy E H W) {x k : V} (h : Tendency E dt H x k) : Tend E dt H W x k :=
  ⟨h.1, fun y hy => h.2 _ (hE.maps y hy)⟩

theorem Tend.add (hE : HasEnergy E H W) (hl : LinearEqn E W) {x k x' k' : V} (h : Tend E dt H W x k) (h' : Tend E dt H W x' k') :
    Tend E dt H W (x + x') (k + k') :=
  ⟨H.add_mem h.1 h'.1, fun y hy => by
    have a := hE.energy.lin.add_left k k' y
    have b := Bilin.add_left hl x x' y
    rw [a, b, h.2 y hy, h'.2 y hy]; ring⟩

theorem Tend.smul (hE : HasEnergy E H W) (hl : LinearEqn E W) {x k : V} (t : ℝ) (h : Tend E dt H W x k) :
    Tend E dt H W (t • x) (t • k) :=
  ⟨H.smul_mem t h.1, fun y hy => by
    have a := hE.energy.lin.smul_left t k y
    have b := Bilin.smul_left hl t x y
    rw [a, b, h.2 y hy]; ring⟩

theorem Tend.lin (hE : HasEnergy E H W) (hl : LinearEqn E W) {x k x' k' y l : V} (s t : ℝ) (h : Tend E dt H W x k)
    (h' : Tend E dt H W x' k') (hx : y = s • x + t • x') (hk : l = s • k + t • k') : Tend E dt H W y l := by
  subst hx hk
  exact (h.smul hE hl s).add hE hl (h'.smul hE hl t)

/-- A new solution that is `u + w₁ + w₂/2 + c w₃`. -/
def Cubic (E : Eqn V) (dt : ℝ) (H : Submodule ℝ V) (W : V → V) (c : ℝ) (old new : V) : Prop :=
  ∃ w1 w2 w3, Tend E dt H W old w1 ∧ Tend E dt H W w1 w2 ∧ Tend E dt H W w2 w3 ∧
    new = old + w1 + (1 / 2 : ℝ) • w2 + c • w3

/-- A new solution that is `u + w₁ + w₂/2`. -/
def Square (E : Eqn V) (dt : ℝ) (H : Submodule ℝ V) (W : V → V) (old new : V) : Prop :=
  ∃ w1 w2, Tend E dt H W old w1 ∧ Tend E dt H W w1 w2 ∧ new = old + w1 + (1 / 2 : ℝ) • w2

/-- Every explicit scheme of order two with three stages is such a polynomial. -/
theorem cubic_of_stages (hE : HasEnergy E H W) (hl : LinearEqn E W) {old new k0 k1 k2 : V} {a10 a20 a21 b0 b1 b2 c : ℝ}
    (h0 : Tend E dt H W old k0) (h1 : Tend E dt H W (old + a10 • k0) k1)
    (h2 : Tend E dt H W (old + (a20 • k0 + a21 • k1)) k2) (hn : new = old + (b0 • k0 + b1 • k1 + b2 • k2))
    (ha : a10 ≠ 0) (ha' : a21 ≠ 0) (hb : b0 + b1 + b2 = 1) (hb' : b1 * a10 + b2 * (a20 + a21) = 1 / 2)
    (hc : b2 * a21 * a10 = c) : Cubic E dt H W c old new := by
  have t2 : Tend E dt H W k0 (a10⁻¹ • (k1 - k0)) :=
    Tend.lin hE hl a10⁻¹ (-a10⁻¹) h1 h0 (by rw [smul_add, smul_smul, inv_mul_cancel₀ ha]; module) (by module)
  have t3 : Tend E dt H W (a10⁻¹ • (k1 - k0)) ((a21 * a10)⁻¹ • (k2 - k0 - (a20 + a21) • (a10⁻¹ • (k1 - k0)))) := by
    have d : Tend E dt H W (a20 • k0 + a21 • k1) (k2 - k0) :=
      Tend.lin hE hl 1 (-1) h2 h0 (by module) (by module)
    refine Tend.lin hE hl (a21 * a10)⁻¹ (-((a21 * a10)⁻¹ * (a20 + a21))) d t2 ?_ (by module)
    have e1 : a10⁻¹ = (a21 * a10)⁻¹ * a21 := by field_simp
    rw [e1]; module
  refine ⟨k0, _, _, h0, t2, t3, ?_⟩
  rw [hn, ← hc]
  have e1 : b2 * a21 * a10 * (a21 * a10)⁻¹ = b2 := by field_simp
  have e2 : (1 / 2 - b2 * (a20 + a21)) * a10⁻¹ = b1 := by rw [← hb']; field_simp; ring
  have e3 : b0 = 1 - b1 - b2 := by linarith
  have : old + k0 + (1 / 2 : ℝ) • a10⁻¹ • (k1 - k0) +
      (b2 * a21 * a10) • (a21 * a10)⁻¹ • (k2 - k0 - (a20 + a21) • (a10⁻¹ • (k1 - k0))) =
      old + k0 + ((1 / 2 - b2 * a21 * a10 * (a21 * a10)⁻¹ * (a20 + a21)) * a10⁻¹) • (k1 - k0) +
      (b2 * a21 * a10 * (a21 * a10)⁻¹) • (k2 - k0) := by module
  rw [this, e1, e2, e3]
  module

theorem square_of_stages (hE : HasEnergy E H W) (hl : LinearEqn E W) {old new k0 k1 : V} {a10 b0 b1 : ℝ}
    (h0 : Tend E dt H W old k0) (h1 : Tend E dt H W (old + a10 • k0) k1) (hn : new = old + (b0 • k0 + b1 • k1))
    (ha : a10 ≠ 0) (hb : b0 + b1 = 1) (hb' : b1 * a10 = 1 / 2) : Square E dt H W old new := by
  have t2 : Tend E dt H W k0 (a10⁻¹ • (k1 - k0)) :=
    Tend.lin hE hl a10⁻¹ (-a10⁻¹) h1 h0 (by rw [smul_add, smul_smul, inv_mul_cancel₀ ha]; module) (by module)
  refine ⟨k0, _, h0, t2, ?_⟩
  have e2 : 1 / 2 * a10⁻¹ = b1 := by rw [← hb']; field_simp
  have e3 : b0 = 1 - b1 := by linarith
  rw [hn, smul_smul, e2, e3]
  module

end

end Verif.Explicit
