import Verif.Local.Model
import Mathlib.Tactic.Ring

/-!
Integrals against a test function of one cell.
-/

namespace Verif.Local

open Verif.Dg

variable {d : ℕ} {m : Mesh d} {κ : Type*} {own : Pt m → κ} {k : κ}

@[simp] theorem zv : (0 : Jet d).v = 0 := rfl
@[simp] theorem zg (i : Fin d) : (0 : Jet d).g i = 0 := rfl

/-- The values of two fields at a point of the cell. -/
theorem Same.cell {f g : Sc m} (h : Same own (near own k) f g) {x : Pt m} (hx : own x = k) : f x = g x :=
  h x (.inl hx)

/-- The values of two fields at both sides of a facet of the cell. -/
theorem Same.facet {f g : Sc m} (h : Same own (near own k) f g) {s : m.S} (hs : own (.plus s) = k ∨ own (.minus s) = k) :
    f (.plus s) = g (.plus s) ∧ f (.minus s) = g (.minus s) := by
  rcases hs with hs | hs
  · exact ⟨h _ (.inl hs), h _ (.inr ⟨s, .inl ⟨hs, rfl⟩⟩)⟩
  · exact ⟨h _ (.inr ⟨s, .inr ⟨hs, rfl⟩⟩), h _ (.inl hs)⟩

theorem dx_congr {f g : m.C → ℝ} (h : ∀ x, own (.cell x) = k → f x = g x) (hf : ∀ x, own (.cell x) ≠ k → f x = 0)
    (hg : ∀ x, own (.cell x) ≠ k → g x = 0) : m.dx f = m.dx g := by
  refine Finset.sum_congr rfl fun x _ => ?_
  by_cases hx : own (.cell x) = k
  · rw [h x hx]
  · rw [hf x hx, hg x hx]

theorem dS_congr {f g : m.S → ℝ} (h : ∀ s, own (.plus s) = k ∨ own (.minus s) = k → f s = g s)
    (hf : ∀ s, own (.plus s) ≠ k → own (.minus s) ≠ k → f s = 0)
    (hg : ∀ s, own (.plus s) ≠ k → own (.minus s) ≠ k → g s = 0) : m.dS f = m.dS g := by
  refine Finset.sum_congr rfl fun s _ => ?_
  by_cases hs : own (.plus s) = k ∨ own (.minus s) = k
  · rw [h s hs]
  · rw [not_or] at hs
    rw [hf s hs.1 hs.2, hg s hs.1 hs.2]

theorem bndLoop_congr {f g : ℕ → m.B → ℝ} (h : ∀ j x, own (.bnd x) = k → f j x = g j x)
    (hf : ∀ j x, own (.bnd x) ≠ k → f j x = 0) (hg : ∀ j x, own (.bnd x) ≠ k → g j x = 0) : m.bndLoop f = m.bndLoop g := by
  unfold Mesh.bndLoop
  refine congrArg List.sum (List.map_congr_left fun j _ => Finset.sum_congr rfl fun x _ => ?_)
  by_cases hx : own (.bnd x) = k
  · rw [h j x hx]
  · rw [hf j x hx, hg j x hx]

end Verif.Local
