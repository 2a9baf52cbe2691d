import Verif.Local.Props4
import Verif.Limiter.Model
import Verif.Swe.Props

/-!
C144: the slope limiter, and examples.
-/

namespace Verif.Local

open Verif.Dg

/-! ### The slope limiter -/

section Limiter

open Verif.Limiter

variable {C V ι : Type} [Fintype ι] (m : Limiter.Mesh C V ι) {b b' : C → ℝ} {q q' : C → ι → ℝ} {v : V}

theorem cellMax_same (l : List C) (h : ∀ c, (∃ i, m.vert c i = v) → b c = b' c) {f g : V → ℝ} (hf : f v = g v) :
    l.foldl (cellMax m b) f v = l.foldl (cellMax m b') g v := by
  induction l generalizing f g with
  | nil => exact hf
  | cons c l ih =>
    refine ih ?_
    unfold cellMax
    split
    · rename_i hc
      rw [hf, h c hc]
    · exact hf

theorem cellMin_same (l : List C) (h : ∀ c, (∃ i, m.vert c i = v) → b c = b' c) {f g : V → ℝ} (hf : f v = g v) :
    l.foldl (cellMin m b) f v = l.foldl (cellMin m b') g v := by
  induction l generalizing f g with
  | nil => exact hf
  | cons c l ih =>
    refine ih ?_
    unfold cellMin
    split
    · rename_i hc
      rw [hf, h c hc]
    · exact hf

theorem faceMax_same (l : List (C × List ι)) (h : ∀ c, (∃ i, m.vert c i = v) → q c = q' c) {f g : V → ℝ} (hf : f v = g v) :
    l.foldl (faceMax m q) f v = l.foldl (faceMax m q') g v := by
  induction l generalizing f g with
  | nil => exact hf
  | cons c l ih =>
    refine ih ?_
    unfold faceMax faceMean
    split
    · rename_i hc
      obtain ⟨i, -, hi⟩ := hc
      rw [hf, h c.1 ⟨i, hi⟩]
    · exact hf

theorem faceMin_same (l : List (C × List ι)) (h : ∀ c, (∃ i, m.vert c i = v) → q c = q' c) {f g : V → ℝ} (hf : f v = g v) :
    l.foldl (faceMin m q) f v = l.foldl (faceMin m q') g v := by
  induction l generalizing f g with
  | nil => exact hf
  | cons c l ih =>
    refine ih ?_
    unfold faceMin faceMean
    split
    · rename_i hc
      obtain ⟨i, -, hi⟩ := hc
      rw [hf, h c.1 ⟨i, hi⟩]
    · exact hf

/-- C144: the limiter changes a cell by the values in this cell and in the cells that share a vertex with it. -/
theorem C144_limiter (timeDependent : Bool) (m0 : Limiter.Mesh C V ι) (order : List ι) (c : C) (hc : q c = q' c)
    (h : ∀ c', (∃ i j, m.vert c i = m.vert c' j) → q c' = q' c') :
    Limiter.apply timeDependent m0 m order q c = Limiter.apply timeDependent m0 m order q' c := by
  have hb : ∀ c', q c' = q' c' → centroid m (matrixMesh timeDependent m0 m) q c' = centroid m (matrixMesh timeDependent m0 m) q' c' :=
    fun c' e => by
      unfold centroid
      rw [e]
  have hv : ∀ j c', (∃ i, m.vert c' i = m.vert c j) → q c' = q' c' := fun j c' ⟨i, hi⟩ => h c' ⟨j, i, hi.symm⟩
  have hmax : ∀ j, maxField m (centroid m (matrixMesh timeDependent m0 m) q) q (m.vert c j) =
      maxField m (centroid m (matrixMesh timeDependent m0 m) q') q' (m.vert c j) := fun j =>
    faceMax_same m _ (hv j) (cellMax_same m _ (fun c' e => hb c' (hv j c' e)) rfl)
  have hmin : ∀ j, minField m (centroid m (matrixMesh timeDependent m0 m) q) q (m.vert c j) =
      minField m (centroid m (matrixMesh timeDependent m0 m) q') q' (m.vert c j) := fun j =>
    faceMin_same m _ (hv j) (cellMin_same m _ (fun c' e => hb c' (hv j c' e)) rfl)
  funext i
  simp only [Limiter.apply, hmax, hmin, hb c hc, hc]

end Limiter

/-! ### Examples -/

/-- Functions that are constant in every cell. -/
def constants {m : Mesh 2} {κ : Type*} (own : Pt m → κ) : Submodule ℝ (Sc m) where
  carrier := {f | (∀ x y, own x = own y → f x = f y) ∧ ∀ x i, (f x).g i = 0}
  zero_mem' := ⟨fun _ _ _ => rfl, fun _ _ => rfl⟩
  add_mem' := fun {f g} hf hg => ⟨fun x y h => congrArg₂ (· + ·) (hf.1 x y h) (hg.1 x y h), fun x i => by
    change (f x).g i + (g x).g i = 0
    rw [hf.2, hg.2, add_zero]⟩
  smul_mem' := fun a f hf => ⟨fun x y h => congrArg (a • ·) (hf.1 x y h), fun x i => by
    change a * (f x).g i = 0
    rw [hf.2, mul_zero]⟩

/-- The triangles of the square: the lower one is `true`. -/
def triangles : Pt square → Bool
  | .cell x => match (x : SqC) with | .l0 | .l1 | .l2 => true | _ => false
  | .plus _ => true
  | .minus _ => false
  | .bnd x => match (x : SqB) with | .b0 | .b1 | .b2 | .l0 | .l1 | .l2 => true | _ => false

/-- Functions that are constant in each triangle are a space of discontinuous functions. -/
example : Broken triangles (constants triangles) where
  cut := fun f hf k => by
    refine ⟨fun x => if triangles x = k then f x else 0, ⟨fun x y h => ?_, fun x i => ?_⟩, fun x hx => if_pos hx, fun x hx => if_neg hx⟩
    · dsimp only
      rw [h, hf.1 x y h]
    · dsimp only
      split
      · exact hf.2 x i
      · rfl
  unisolvent := fun f hf k h x hx => by
    have hc : ∃ c : SqC, triangles (.cell c) = k := by
      cases k
      · exact ⟨.u0, rfl⟩
      · exact ⟨.l0, rfl⟩
    obtain ⟨c, hc⟩ := hc
    rw [hf.1 x (.cell c) (hx.trans hc.symm)]
    exact Jet.ext (h c hc) (funext fun i => hf.2 _ i)
  weights := fun _ => by
    change (0 : ℝ) < 1 / 6
    norm_num

/-- Both triangles are next to each other. -/
example (k : Bool) : near triangles k = Set.univ := by
  ext j
  refine ⟨fun _ => trivial, fun _ => ?_⟩
  by_cases h : j = k
  · exact .inl h
  · refine .inr ⟨(SqS.s0 : square.S), ?_⟩
    cases k <;> cases j <;> first | exact absurd rfl h | exact .inl ⟨rfl, rfl⟩ | exact .inr ⟨rfl, rfl⟩

/-- In a row of cells numbered by the integers, `n` steps of a method with three stages reach `3 n` cells. -/
example (n : ℕ) (k j : ℤ) : j ∈ ball (fun k : ℤ => {j | |j - k| ≤ 1}) (n * 3) k → |j - k| ≤ n * 3 := by
  have h : ∀ (r : ℕ) (k j : ℤ), j ∈ ball (fun k : ℤ => {j | |j - k| ≤ 1}) r k → |j - k| ≤ r := by
    intro r
    induction r with
    | zero =>
      rintro k j rfl
      simp
    | succ r ih =>
      rintro k j ⟨i, hi, hj⟩
      have h1 := ih i j hj
      have h2 : |i - k| ≤ 1 := hi
      push_cast
      rw [abs_le] at *
      omega
  intro hj
  have := h _ _ _ hj
  push_cast at this
  exact this

end Verif.Local
