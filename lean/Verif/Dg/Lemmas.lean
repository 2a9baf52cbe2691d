import Verif.Dg.Model
import Mathlib.Tactic.Ring
import Mathlib.Tactic.Linarith
import Mathlib.Tactic.LinearCombination
import Mathlib.Tactic.FieldSimp
import Mathlib.Tactic.Positivity

/-!
Lemmas about meshes and expressions.
-/

namespace Verif.Dg

variable {d : ℕ}

namespace Jet

@[simp] theorem const_v (x : ℝ) : (const x : Jet d).v = x := rfl
@[simp] theorem const_g (x : ℝ) (i : Fin d) : (const x : Jet d).g i = 0 := rfl
@[simp] theorem zero_v : (0 : Jet d).v = 0 := rfl
@[simp] theorem zero_g (i : Fin d) : (0 : Jet d).g i = 0 := rfl
@[simp] theorem one_v : (1 : Jet d).v = 1 := rfl
@[simp] theorem one_g (i : Fin d) : (1 : Jet d).g i = 0 := rfl
@[simp] theorem add_v (a b : Jet d) : (a + b).v = a.v + b.v := rfl
@[simp] theorem add_g (a b : Jet d) (i : Fin d) : (a + b).g i = a.g i + b.g i := rfl
@[simp] theorem neg_v (a : Jet d) : (-a).v = -a.v := rfl
@[simp] theorem neg_g (a : Jet d) (i : Fin d) : (-a).g i = -a.g i := rfl
@[simp] theorem sub_v (a b : Jet d) : (a - b).v = a.v - b.v := rfl
@[simp] theorem sub_g (a b : Jet d) (i : Fin d) : (a - b).g i = a.g i - b.g i := rfl
@[simp] theorem mul_v (a b : Jet d) : (a * b).v = a.v * b.v := rfl
@[simp] theorem mul_g (a b : Jet d) (i : Fin d) : (a * b).g i = a.g i * b.v + a.v * b.g i := rfl

end Jet

@[simp] theorem cst_apply (m : Mesh d) (x : ℝ) (p : Pt m) : cst m x p = Jet.const x := rfl

variable {m : Mesh d}

/-- The loop over the boundary ids visits every boundary point once. -/
theorem bndLoop_eq (m : Mesh d) (f : ℕ → m.B → ℝ) :
    m.bndLoop f = ∑ b, m.wB b * f (m.marker b) b := by
  unfold Mesh.bndLoop Mesh.ds
  have key : ∀ l : List ℕ, l.Nodup →
      (l.map fun k => ∑ b, if m.marker b = k then m.wB b * f k b else 0).sum =
        ∑ b, if m.marker b ∈ l then m.wB b * f (m.marker b) b else 0 := by
    intro l
    induction l with
    | nil => intro _; simp
    | cons k l ih =>
      intro hn
      rw [List.nodup_cons] at hn
      rw [List.map_cons, List.sum_cons, ih hn.2, ← Finset.sum_add_distrib]
      refine Finset.sum_congr rfl fun b _ => ?_
      by_cases h : m.marker b = k
      · have : m.marker b ∉ l := by rw [h]; exact hn.1
        simp [h, hn.1]
      · simp [h]
  rw [key m.markers m.markers_nodup]
  exact Finset.sum_congr rfl fun b _ => if_pos (m.marker_mem b)

theorem dx_add (f h : m.C → ℝ) : m.dx (fun c => f c + h c) = m.dx f + m.dx h := by
  unfold Mesh.dx; rw [← Finset.sum_add_distrib]; exact Finset.sum_congr rfl fun c _ => by ring

theorem dx_smul (a : ℝ) (f : m.C → ℝ) : m.dx (fun c => a * f c) = a * m.dx f := by
  unfold Mesh.dx; rw [Finset.mul_sum]; exact Finset.sum_congr rfl fun c _ => by ring

theorem dS_add (f h : m.S → ℝ) : m.dS (fun c => f c + h c) = m.dS f + m.dS h := by
  unfold Mesh.dS; rw [← Finset.sum_add_distrib]; exact Finset.sum_congr rfl fun c _ => by ring

theorem dS_smul (a : ℝ) (f : m.S → ℝ) : m.dS (fun c => a * f c) = a * m.dS f := by
  unfold Mesh.dS; rw [Finset.mul_sum]; exact Finset.sum_congr rfl fun c _ => by ring

theorem dx_neg (f : m.C → ℝ) : m.dx (fun c => -f c) = -m.dx f := by
  unfold Mesh.dx; rw [← Finset.sum_neg_distrib]; exact Finset.sum_congr rfl fun c _ => by ring

theorem dS_neg (f : m.S → ℝ) : m.dS (fun c => -f c) = -m.dS f := by
  unfold Mesh.dS; rw [← Finset.sum_neg_distrib]; exact Finset.sum_congr rfl fun c _ => by ring

theorem dx_zero : m.dx (fun _ => 0) = 0 := by simp [Mesh.dx]

theorem dS_zero : m.dS (fun _ => 0) = 0 := by simp [Mesh.dS]

theorem dx_congr {f h : m.C → ℝ} (e : ∀ c, f c = h c) : m.dx f = m.dx h := by
  unfold Mesh.dx; exact Finset.sum_congr rfl fun c _ => by rw [e c]

theorem dS_congr {f h : m.S → ℝ} (e : ∀ c, f c = h c) : m.dS f = m.dS h := by
  unfold Mesh.dS; exact Finset.sum_congr rfl fun c _ => by rw [e c]

theorem dx_nonneg {f : m.C → ℝ} (h : ∀ c, 0 ≤ f c) : 0 ≤ m.dx f :=
  Finset.sum_nonneg fun c _ => mul_nonneg (m.wC_nonneg c) (h c)

theorem dS_nonneg {f : m.S → ℝ} (h : ∀ c, 0 ≤ f c) : 0 ≤ m.dS f :=
  Finset.sum_nonneg fun c _ => mul_nonneg (m.wS_nonneg c) (h c)

theorem dB_nonneg {f : m.B → ℝ} (h : ∀ c, 0 ≤ f c) : 0 ≤ ∑ b, m.wB b * f b :=
  Finset.sum_nonneg fun c _ => mul_nonneg (m.wB_nonneg c) (h c)

theorem dB_add (f g : m.B → ℝ) :
    (∑ b, m.wB b * (f b + g b)) = (∑ b, m.wB b * f b) + ∑ b, m.wB b * g b := by
  rw [← Finset.sum_add_distrib]; exact Finset.sum_congr rfl fun b _ => by ring

theorem dB_smul (k : ℝ) (f : m.B → ℝ) : (∑ b, m.wB b * (k * f b)) = k * ∑ b, m.wB b * f b := by
  rw [Finset.mul_sum]; exact Finset.sum_congr rfl fun b _ => by ring

theorem dB_congr {f g : m.B → ℝ} (h : ∀ b, f b = g b) : (∑ b, m.wB b * f b) = ∑ b, m.wB b * g b :=
  Finset.sum_congr rfl fun b _ => by rw [h b]

theorem sgn_mul_self (z x : ℝ) : x * sgn z x = |x| := by
  unfold sgn
  split
  · next h => rw [abs_of_pos h]; ring
  · next h =>
    split
    · next h2 => rw [abs_of_neg h2]; ring
    · next h2 =>
      have : x = 0 := le_antisymm (not_lt.1 h) (not_lt.1 h2)
      simp [this]

end Verif.Dg
