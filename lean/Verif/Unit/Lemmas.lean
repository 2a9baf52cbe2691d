import Verif.Unit.Model
import Mathlib.Tactic.FieldSimp
import Mathlib.Tactic.Ring
import Mathlib.Tactic.LinearCombination
import Mathlib.Tactic.Positivity

/-!
Operators and integrals after a change of units.
-/

namespace Verif.Unit

open Verif.Dg

variable {d : ℕ}

/-! ### Sums of terms of one unit -/

theorem add_eq {K a b a' b' : ℝ} (h : a' = K * a) (h' : b' = K * b) : a' + b' = K * (a + b) := by
  rw [h, h', mul_add]

theorem sub_eq {K a b a' b' : ℝ} (h : a' = K * a) (h' : b' = K * b) : a' - b' = K * (a - b) := by
  rw [h, h', mul_sub]

theorem neg_eq {K a a' : ℝ} (h : a' = K * a) : -a' = K * -a := by
  rw [h, mul_neg]

theorem ite_eq {K a b a' b' : ℝ} {p q : Prop} [Decidable p] [Decidable q] (hp : p ↔ q) (h : a' = K * a) (h' : b' = K * b) :
    (if p then a' else b') = K * if q then a else b := by
  rw [if_congr hp h h', mul_ite]

theorem zero_eq {K : ℝ} : (0 : ℝ) = K * 0 := (mul_zero K).symm

theorem sum_eq {ι : Type*} [Fintype ι] {K : ℝ} {f g : ι → ℝ} (h : ∀ i, f i = K * g i) : ∑ i, f i = K * ∑ i, g i := by
  rw [Finset.mul_sum]
  exact Finset.sum_congr rfl fun i _ => h i

/-! ### Jets -/

theorem jet_mul {L : ℝ} (k l : ℝ) (a b : Jet d) : jet k L a * jet l L b = jet (k * l) L (a * b) := by
  refine Jet.ext ?_ (funext fun i => ?_)
  · change k * a.v * (l * b.v) = k * l * (a.v * b.v)
    ring
  · change k / L * a.g i * (l * b.v) + k * a.v * (l / L * b.g i) = k * l / L * (a.g i * b.v + a.v * b.g i)
    ring

theorem jet_add {L : ℝ} (k : ℝ) (a b : Jet d) : jet k L a + jet k L b = jet k L (a + b) :=
  Jet.ext (mul_add _ _ _).symm (funext fun _ => (mul_add _ _ _).symm)

theorem jet_sub {L : ℝ} (k : ℝ) (a b : Jet d) : jet k L a - jet k L b = jet k L (a - b) :=
  Jet.ext (mul_sub _ _ _).symm (funext fun _ => (mul_sub _ _ _).symm)

theorem jet_const {L : ℝ} (k x : ℝ) : jet k L (Jet.const x : Jet d) = Jet.const (k * x) :=
  Jet.ext rfl (funext fun _ => mul_zero _)

theorem jet_half {L : ℝ} (k : ℝ) (a : Jet d) : Jet.const (1 / 2) * jet k L a = jet k L (Jet.const (1 / 2) * a) := by
  have h := jet_mul (L := L) 1 k (Jet.const (1 / 2) : Jet d) a
  rw [jet_const, one_mul, one_mul] at h
  exact h

theorem sqrt_mul_sq {k : ℝ} (hk : 0 ≤ k) (x : ℝ) : Real.sqrt (k * k * x) = k * Real.sqrt x := by
  rw [Real.sqrt_mul (mul_self_nonneg k), Real.sqrt_mul_self hk]

theorem jet_sqrt {L k : ℝ} (hk : 0 < k) (a : Jet d) : Jet.sqrt (jet (k * k) L a) = jet k L (Jet.sqrt a) := by
  refine Jet.ext (sqrt_mul_sq hk.le a.v) (funext fun i => ?_)
  change k * k / L * a.g i / (2 * Real.sqrt (k * k * a.v)) = k / L * (a.g i / (2 * Real.sqrt a.v))
  rw [sqrt_mul_sq hk.le]
  field_simp

namespace Conv

variable (U : Conv) {m : Mesh d}

@[simp] theorem sc_v (k : ℝ) (f : Sc m) (x : Pt (U.mesh m)) : (U.sc k f x).v = k * (f (U.pt x)).v := rfl
@[simp] theorem sc_g (k : ℝ) (f : Sc m) (x : Pt (U.mesh m)) (i : Fin d) : (U.sc k f x).g i = k / U.L * (f (U.pt x)).g i := rfl
@[simp] theorem vc_v (k : ℝ) (u : Vc m) (i : Fin d) (x : Pt (U.mesh m)) : (U.vc k u i x).v = k * (u i (U.pt x)).v := rfl
@[simp] theorem vc_g (k : ℝ) (u : Vc m) (i j : Fin d) (x : Pt (U.mesh m)) :
    (U.vc k u i x).g j = k / U.L * (u i (U.pt x)).g j := rfl
@[simp] theorem pt_cell (x : m.C) : U.pt (m := m) (.cell x) = .cell x := rfl
@[simp] theorem pt_plus (x : m.S) : U.pt (m := m) (.plus x) = .plus x := rfl
@[simp] theorem pt_minus (x : m.S) : U.pt (m := m) (.minus x) = .minus x := rfl
@[simp] theorem pt_bnd (x : m.B) : U.pt (m := m) (.bnd x) = .bnd x := rfl
@[simp] theorem nb_eq (x : m.B) : (U.mesh m).nb x = m.nb x := rfl
@[simp] theorem np_eq (x : m.S) : (U.mesh m).np x = m.np x := rfl
@[simp] theorem nm_eq (x : m.S) : (U.mesh m).nm x = m.nm x := rfl

/-! ### Integrals -/

theorem dx_eq {f g : m.C → ℝ} (k : ℝ) {K : ℝ} (h : ∀ x, f x = k * g x) (hk : U.L ^ d * k = K) :
    (U.mesh m).dx f = K * m.dx g := by
  unfold Mesh.dx
  refine sum_eq fun x => ?_
  change U.L ^ d * m.wC x * f x = _
  rw [h, ← hk]
  ring

theorem dS_eq {f g : m.S → ℝ} (k : ℝ) {K : ℝ} (h : ∀ x, f x = k * g x) (hk : U.L ^ (d - 1) * k = K) :
    (U.mesh m).dS f = K * m.dS g := by
  unfold Mesh.dS
  refine sum_eq fun x => ?_
  change U.L ^ (d - 1) * m.wS x * f x = _
  rw [h, ← hk]
  ring

theorem bndLoop_eq {f g : ℕ → m.B → ℝ} (k : ℝ) {K : ℝ} (h : ∀ j x, f j x = k * g j x) (hk : U.L ^ (d - 1) * k = K) :
    (U.mesh m).bndLoop f = K * m.bndLoop g := by
  unfold Mesh.bndLoop
  rw [← List.sum_map_mul_left]
  refine congrArg List.sum (List.map_congr_left fun j _ => ?_)
  unfold Mesh.ds
  refine sum_eq fun x => ite_eq Iff.rfl ?_ zero_eq
  change U.L ^ (d - 1) * m.wB x * f j x = _
  rw [h, ← hk]
  ring

/-! ### Operators -/

@[simp] theorem avg_sc (k : ℝ) (f : Sc m) (x : m.S) : avg (m := U.mesh m) (U.sc k f) x = k * avg f x := by
  simp only [avg, sc_v, pt_plus, pt_minus]
  ring

@[simp] theorem avg_vc (k : ℝ) (u : Vc m) (i : Fin d) (x : m.S) : avg (m := U.mesh m) (U.vc k u i) x = k * avg (u i) x :=
  U.avg_sc k (u i) x

@[simp] theorem jump_sc (k : ℝ) (f : Sc m) (x : m.S) : jump (m := U.mesh m) (U.sc k f) x = k * jump f x := by
  simp only [jump, sc_v, pt_plus, pt_minus]
  ring

@[simp] theorem jump_vc (k : ℝ) (u : Vc m) (i : Fin d) (x : m.S) : jump (m := U.mesh m) (U.vc k u i) x = k * jump (u i) x :=
  U.jump_sc k (u i) x

@[simp] theorem jumpN_sc (k : ℝ) (f : Sc m) (x : m.S) (i : Fin d) :
    jumpN (m := U.mesh m) (U.sc k f) x i = k * jumpN f x i := by
  simp only [jumpN, sc_v, pt_plus, pt_minus]
  ring

@[simp] theorem jumpN_vc (k : ℝ) (u : Vc m) (x : m.S) (i j : Fin d) :
    jumpN (m := U.mesh m) (U.vc k u i) x j = k * jumpN (u i) x j :=
  U.jumpN_sc k (u i) x j

@[simp] theorem jumpV_vc (k : ℝ) (u : Vc m) (x : m.S) : jumpV (m := U.mesh m) (U.vc k u) x = k * jumpV u x := by
  unfold jumpV
  exact add_eq (sum_eq fun i => by simp [mul_assoc]) (sum_eq fun i => by simp [mul_assoc])

@[simp] theorem div_vc (k : ℝ) (u : Vc m) (x : Pt (U.mesh m)) : div (U.vc k u) x = k / U.L * div u (U.pt x) :=
  sum_eq fun _ => rfl

@[simp] theorem normalAt_vc (k : ℝ) (u : Vc m) (x : m.B) : normalAt (m := U.mesh m) (U.vc k u) x = k * normalAt u x :=
  sum_eq fun i => by simp [mul_assoc]

/-! ### Depth -/

theorem displacement_eq (D : Depth m) (x : Pt (U.mesh m)) (eta : Jet d) :
    (U.depth D).displacement x (jet U.L U.L eta) = jet U.L U.L (D.displacement (U.pt x) eta) := by
  unfold Depth.displacement depth sc
  simp only
  split
  · rw [jet_add, jet_mul, jet_mul, jet_add, jet_sqrt U.hL, jet_sub, jet_half]
  · exact Jet.ext (mul_zero _).symm (funext fun _ => (mul_zero _).symm)

theorem total_eq (D : Depth m) (x : Pt (U.mesh m)) (eta : Jet d) :
    (U.depth D).total x (jet U.L U.L eta) = jet U.L U.L (D.total (U.pt x) eta) := by
  unfold Depth.total
  rw [displacement_eq]
  unfold depth sc
  simp only
  split
  · rw [jet_add, jet_add]
  · rfl

end Conv

/-! ### Upwinding -/

theorem sgn_mul {k : ℝ} (hk : 0 < k) (z x : ℝ) : sgn z (k * x) = sgn z x := by
  unfold sgn
  refine if_congr (mul_pos_iff_of_pos_left hk) rfl (if_congr ⟨fun h => ?_, fun h => mul_neg_of_pos_of_neg hk h⟩ rfl rfl)
  by_contra h'
  exact absurd (mul_nonneg hk.le (not_lt.mp h')) (not_le.mpr h)

theorem abs_mul_pos {k : ℝ} (hk : 0 < k) (x : ℝ) : |k * x| = k * |x| := by
  rw [abs_mul, abs_of_pos hk]

theorem sqrt_hg (U : Conv) (x y : ℝ) : Real.sqrt (U.L * x / (U.L / U.T ^ 2 * y)) = U.T * Real.sqrt (x / y) := by
  rw [← sqrt_mul_sq U.hT.le]
  congr 1
  have := U.hL.ne'
  have := U.hT.ne'
  field_simp

theorem sqrt_gh (U : Conv) (x y : ℝ) : Real.sqrt (U.L / U.T ^ 2 * y / (U.L * x)) = U.T⁻¹ * Real.sqrt (y / x) := by
  rw [← sqrt_mul_sq (inv_pos.mpr U.hT).le]
  congr 1
  have := U.hL.ne'
  have := U.hT.ne'
  field_simp

/-- The larger of two numbers. -/
theorem ite_max {k : ℝ} (hk : 0 < k) (a b : ℝ) : (if k * a > k * b then k * a else k * b) = k * if a > b then a else b :=
  ite_eq (mul_lt_mul_iff_right₀ hk) rfl rfl

end Verif.Unit
