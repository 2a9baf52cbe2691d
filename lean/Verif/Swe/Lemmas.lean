import Verif.Swe.Model
import Verif.Dg.Lemmas

/-!
Lemmas about the shallow water terms.
-/

namespace Verif.Swe

open Verif.Dg

variable {m : Mesh 2}

/-- A closed boundary: no dictionary, or a dictionary with nothing but `drag`. -/
def IsClosed (f : Option (Funcs m)) : Prop := ∀ l, f = some l → ∀ e ∈ l, ∃ d, e = .drag d

theorem imposeLoop_closed (l : Funcs m) (h : ∀ e ∈ l, ∃ d, e = .drag d) : imposeLoop l = .ok false := by
  induction l with
  | nil => rfl
  | cons e l ih =>
    obtain ⟨d, rfl⟩ := h e (by simp)
    exact ih fun e he => h e (by simp [he])

theorem imposeLoop_false (l : Funcs m) (h : imposeLoop l = .ok false) : ∀ e ∈ l, ∃ d, e = .drag d := by
  induction l with
  | nil => simp
  | cons e l ih =>
    cases e <;> simp [imposeLoop] at h
    · next d =>
      intro e he
      rcases List.mem_cons.1 he with rfl | he
      · exact ⟨d, rfl⟩
      · exact ih h e he

theorem openFuncs_closed {f : Option (Funcs m)} (h : IsClosed f) : openFuncs f = none := by
  unfold openFuncs imposeDynamic
  cases f with
  | none => rfl
  | some l => simp only [imposeLoop_closed l (h l rfl)]

theorem dB_zero {d : ℕ} {m : Mesh d} : (∑ b, m.wB b * (0 : ℝ)) = 0 := by simp

theorem dB_neg {d : ℕ} {m : Mesh d} (f : m.B → ℝ) : (∑ b, m.wB b * -f b) = -∑ b, m.wB b * f b := by
  rw [← Finset.sum_neg_distrib]; exact Finset.sum_congr rfl fun b _ => by ring

theorem dB_sub {d : ℕ} {m : Mesh d} (f g : m.B → ℝ) :
    (∑ b, m.wB b * (f b - g b)) = (∑ b, m.wB b * f b) - ∑ b, m.wB b * g b := by
  rw [← Finset.sum_sub_distrib]; exact Finset.sum_congr rfl fun b _ => by ring

theorem dx_sub {d : ℕ} {m : Mesh d} (f g : m.C → ℝ) : m.dx (fun c => f c - g c) = m.dx f - m.dx g := by
  unfold Mesh.dx
  rw [← Finset.sum_sub_distrib]; exact Finset.sum_congr rfl fun b _ => by ring

theorem dS_sub {d : ℕ} {m : Mesh d} (f g : m.S → ℝ) : m.dS (fun c => f c - g c) = m.dS f - m.dS g := by
  unfold Mesh.dS
  rw [← Finset.sum_sub_distrib]; exact Finset.sum_congr rfl fun b _ => by ring

/-- The value of the depth depends on the value of the elevation only. -/
theorem total_v (D : Depth m) (x : Pt m) (e : Jet 2) : (D.total x e).v = (D.total x (Jet.const e.v)).v := by
  unfold Depth.total Depth.displacement
  cases D.nonlinear <;> cases D.wetdry <;> simp [Jet.sqrt]

theorem totalH_v (T : Term m) (eta : Sc m) (x : Pt m) : (totalH T eta x).v = depthAt T x (eta x).v :=
  total_v _ _ _

/-- In the linear equations the depth is the bathymetry. -/
theorem totalH_linear (T : Term m) (h : T.depth.nonlinear = false) (eta : Sc m) : totalH T eta = T.depth.bathymetry := by
  funext x
  simp [totalH, Depth.total, h]

theorem depthAt_linear (T : Term m) (h : T.depth.nonlinear = false) (x : Pt m) (e : ℝ) :
    depthAt T x e = (T.depth.bathymetry x).v := by
  simp [depthAt, Depth.total, h]

/-- An open boundary has a dictionary in which one of the four keys occurs. -/
theorem open_some {f : Option (Funcs m)} {l : Funcs m} (h : openFuncs f = some l) :
    f = some l ∧ imposeLoop l = .ok true := by
  unfold openFuncs imposeDynamic at h
  cases f with
  | none => simp at h
  | some l' =>
    simp only at h
    split at h
    · next h2 => simp only [Option.some.injEq] at h; subst h; exact ⟨rfl, h2⟩
    · cases h

theorem imposeLoop_true (l : Funcs m) (h : imposeLoop l = .ok true) :
    l.elev.isSome ∨ l.uv.isSome ∨ l.un.isSome ∨ l.flux.isSome := by
  induction l with
  | nil => simp [imposeLoop] at h
  | cons e l ih =>
    cases e <;> simp [imposeLoop] at h <;>
      simp only [Funcs.elev, Funcs.uv, Funcs.un, Funcs.flux, List.findSome?_cons, Option.isSome_some, true_or, or_true]
    exact ih h

end Verif.Swe
