import Verif.Contract.Model
import Verif.RK.Lemmas
import Verif.Swe.Lemmas
import Mathlib.Tactic.Module

/-!
Lemmas for implicit steps: linear maps, and the algebra behind the energy estimates.
-/

namespace Verif.Contract

open Finset Verif.Dg

section Lin

variable {V : Type*} [AddCommGroup V] [Module ℝ V]

/-- A linear functional. -/
def IsLin (f : V → ℝ) : Prop := (∀ x y, f (x + y) = f x + f y) ∧ ∀ (a : ℝ) x, f (a • x) = a * f x

/-- A bilinear form. -/
def Bilin (f : V → V → ℝ) : Prop := (∀ y, IsLin fun x => f x y) ∧ ∀ x, IsLin (f x)

namespace IsLin

variable {f h : V → ℝ}

theorem zero : IsLin fun _ : V => (0 : ℝ) := ⟨fun _ _ => by simp, fun _ _ => by simp⟩

theorem add (hf : IsLin f) (hh : IsLin h) : IsLin fun x => f x + h x :=
  ⟨fun x y => by simp only [hf.1, hh.1]; ring, fun a x => by simp only [hf.2, hh.2]; ring⟩

theorem neg (hf : IsLin f) : IsLin fun x => -f x :=
  ⟨fun x y => by simp only [hf.1]; ring, fun a x => by simp only [hf.2]; ring⟩

theorem sub (hf : IsLin f) (hh : IsLin h) : IsLin fun x => f x - h x :=
  ⟨fun x y => by simp only [hf.1, hh.1]; ring, fun a x => by simp only [hf.2, hh.2]; ring⟩

theorem left (c : ℝ) (hf : IsLin f) : IsLin fun x => c * f x :=
  ⟨fun x y => by simp only [hf.1]; ring, fun a x => by simp only [hf.2]; ring⟩

theorem right (hf : IsLin f) (c : ℝ) : IsLin fun x => f x * c :=
  ⟨fun x y => by simp only [hf.1]; ring, fun a x => by simp only [hf.2]; ring⟩

theorem quot (hf : IsLin f) (c : ℝ) : IsLin fun x => f x / c :=
  ⟨fun x y => by simp only [hf.1]; ring, fun a x => by simp only [hf.2]; ring⟩

theorem sum {ι : Type*} {s : Finset ι} {F : ι → V → ℝ} (hF : ∀ i, IsLin (F i)) : IsLin fun x => ∑ i ∈ s, F i x :=
  ⟨fun x y => by simp only [(hF _).1, sum_add_distrib], fun a x => by simp only [(hF _).2, mul_sum]⟩

theorem dx {d : ℕ} {m : Mesh d} {F : V → m.C → ℝ} (hF : ∀ c, IsLin fun x => F x c) : IsLin fun x => m.dx (F x) :=
  sum fun c => (hF c).left _

theorem dS {d : ℕ} {m : Mesh d} {F : V → m.S → ℝ} (hF : ∀ c, IsLin fun x => F x c) : IsLin fun x => m.dS (F x) :=
  sum fun c => (hF c).left _

theorem dB {d : ℕ} {m : Mesh d} {F : V → m.B → ℝ} (hF : ∀ c, IsLin fun x => F x c) :
    IsLin fun x => ∑ b, m.wB b * F x b :=
  sum fun c => (hF c).left _

theorem ite {p : Prop} [Decidable p] (hf : IsLin f) (hh : IsLin h) : IsLin fun x => if p then f x else h x := by
  split
  · exact hf
  · exact hh

theorem map_smul (hf : IsLin f) (a : ℝ) (x : V) : f (a • x) = a * f x := hf.2 a x

theorem map_zero (hf : IsLin f) : f 0 = 0 := by
  have := hf.2 0 0
  simpa using this

theorem map_sum (hf : IsLin f) {ι : Type*} (s : Finset ι) (x : ι → V) : f (∑ i ∈ s, x i) = ∑ i ∈ s, f (x i) := by
  classical
  induction s using Finset.induction_on with
  | empty => simpa using hf.map_zero
  | insert a s ha ih => rw [sum_insert ha, sum_insert ha, hf.1, ih]

theorem map_sub (hf : IsLin f) (x y : V) : f (x - y) = f x - f y := by
  have : x - y = x + (-1 : ℝ) • y := by module
  rw [this, hf.1, hf.2]; ring

end IsLin

namespace Bilin

variable {f : V → V → ℝ} (hf : Bilin f)

include hf

theorem add_left (x y w : V) : f (x + y) w = f x w + f y w := (hf.1 w).1 x y
theorem add_right (x y w : V) : f w (x + y) = f w x + f w y := (hf.2 w).1 x y
theorem sub_left (x y w : V) : f (x - y) w = f x w - f y w := (hf.1 w).map_sub x y
theorem sub_right (x y w : V) : f w (x - y) = f w x - f w y := (hf.2 w).map_sub x y
theorem smul_left (t : ℝ) (x w : V) : f (t • x) w = t * f x w := (hf.1 w).2 t x
theorem smul_right (t : ℝ) (x w : V) : f w (t • x) = t * f w x := (hf.2 w).2 t x
theorem sum_left {ι : Type*} (s : Finset ι) (x : ι → V) (w : V) : f (∑ i ∈ s, x i) w = ∑ i ∈ s, f (x i) w :=
  (hf.1 w).map_sum s x
theorem sum_right {ι : Type*} (s : Finset ι) (x : ι → V) (w : V) : f w (∑ i ∈ s, x i) = ∑ i ∈ s, f w (x i) :=
  (hf.2 w).map_sum s x

end Bilin

/-- A symmetric bilinear form that is nowhere negative. -/
structure IsEnergy (e : V → V → ℝ) : Prop where
  lin : Bilin e
  symm : ∀ x y, e x y = e y x
  nonneg : ∀ x, 0 ≤ e x x

/-- The identity of the theta method, for a step `e(n - o, w) = r(theta n + (1 - theta) o, w)`. -/
theorem theta_core {e r : V → V → ℝ} (he : IsEnergy e) (hr : Bilin r) (theta : ℝ) (o n : V)
    (h : ∀ w, w = theta • n + (1 - theta) • o → e n w - e o w = theta * r n w + (1 - theta) * r o w) :
    e n n - e o o = 2 * r (theta • n + (1 - theta) • o) (theta • n + (1 - theta) • o) -
      (2 * theta - 1) * e (n - o) (n - o) := by
  have h1 := h _ rfl
  have hw : ∀ x, e x (theta • n + (1 - theta) • o) = theta * e x n + (1 - theta) * e x o := fun x => by
    rw [he.lin.add_right, he.lin.smul_right, he.lin.smul_right]
  have hs : ∀ w, r (theta • n + (1 - theta) • o) w = theta * r n w + (1 - theta) * r o w := fun w => by
    rw [hr.add_left, hr.smul_left, hr.smul_left]
  have hd : e (n - o) (n - o) = e n n - 2 * e n o + e o o := by
    rw [he.lin.sub_left, he.lin.sub_right, he.lin.sub_right, he.symm o n]; ring
  rw [hw, hw, he.symm o n] at h1
  rw [hs, hd, ← h1]
  ring

/-- The identity behind `DIRK22`. -/
theorem dirk22_core {e r : V → V → ℝ} (he : IsEnergy e) (hr : Bilin r) (g : ℝ) (hg : 2 * g ^ 2 = 4 * g - 1) (a b c : V)
    (hb : ∀ w, w = a ∨ w = b ∨ w = c → e b w = r a w) (hc : ∀ w, w = a ∨ w = b ∨ w = c → e c w = r b w) :
    e (a - (2 * g) • b + g ^ 2 • c) (a - (2 * g) • b + g ^ 2 • c) - e (a + (1 - 2 * g) • b) (a + (1 - 2 * g) • b) =
      -2 * r (a - g ^ 2 • b) (a - g ^ 2 • b) - 2 * g ^ 3 * (2 - g) * r b b + g ^ 4 * e c c := by
  simp only [he.lin.add_left, he.lin.add_right, he.lin.sub_left, he.lin.sub_right, he.lin.smul_left, he.lin.smul_right,
    hr.sub_left, hr.sub_right, hr.smul_left, hr.smul_right]
  rw [he.symm a b, he.symm a c, he.symm b c]
  have h1 := hb a (Or.inl rfl)
  have h2 := hb b (Or.inr (Or.inl rfl))
  have h4 := hc a (Or.inl rfl)
  have h5 := hc b (Or.inr (Or.inl rfl))
  rw [h1, h2, h4, h5]
  linear_combination (-(r a b)) * hg

end Lin

/-- The number of `DIRK22`. -/
theorem g22_eq : 2 * RK.γ22 ^ 2 = 4 * RK.γ22 - 1 := by
  have h : Real.sqrt 2 ^ 2 = 2 := Real.sq_sqrt (by norm_num)
  unfold RK.γ22
  linear_combination (1 / 2) * h

theorem g22_bounds : 0 < RK.γ22 ∧ RK.γ22 < 1 := by
  have h : Real.sqrt 2 ^ 2 = 2 := Real.sq_sqrt (by norm_num)
  have h0 := Real.sqrt_nonneg 2
  unfold RK.γ22
  constructor <;> nlinarith

end Verif.Contract
