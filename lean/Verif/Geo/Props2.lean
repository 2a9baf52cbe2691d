import Verif.Geo.Props
import Mathlib.Analysis.SpecialFunctions.Trigonometric.Deriv
import Mathlib.Analysis.SpecialFunctions.Trigonometric.Bounds
import Mathlib.Analysis.Calculus.MeanValue
import Mathlib.Tactic.LinearCombination

/-! C99: cell widths, wetting and drying parameter, anisotropic size.  C101: beta plane. -/

namespace Verif.Geo

variable {M : Mesh}

/-! ### Cell widths -/

theorem widthLoop_eq (w0 : ℝ) (c : Fin 3 → ℝ) :
    widthLoop w0 c = max (max (max w0 |c 0 - c 1|) |c 1 - c 2|) |c 2 - c 0| := by
  have : List.finRange 3 = [0, 1, 2] := by decide
  simp only [widthLoop, this, List.foldl_cons, List.foldl_nil]
  rfl

/-- C99: the width of a cell in a direction is the largest difference of two vertex coordinates. -/
theorem C99_widths (w0 : ℝ) (hw : w0 ≤ 0) (c : Fin 3 → ℝ) :
    (∀ i j, |c i - c j| ≤ widthLoop w0 c) ∧ ∃ i j, widthLoop w0 c = c i - c j := by
  rw [widthLoop_eq, max_eq_right (hw.trans (abs_nonneg _))]
  constructor
  · have e01 := abs_sub_comm (c 1) (c 0)
    have e12 := abs_sub_comm (c 2) (c 1)
    have e20 := abs_sub_comm (c 0) (c 2)
    intro i j
    fin_cases i <;> fin_cases j <;> simp [e01, e12, e20]
  · have ab : ∀ i j : Fin 3, ∃ i' j', |c i - c j| = c i' - c j' := fun i j => by
      rcases abs_choice (c i - c j) with h | h
      · exact ⟨i, j, h⟩
      · exact ⟨j, i, by rw [h]; ring⟩
    rcases max_choice (max |c 0 - c 1| |c 1 - c 2|) |c 2 - c 0| with h | h
    · rw [h]
      rcases max_choice |c 0 - c 1| |c 1 - c 2| with h | h <;> rw [h] <;> exact ab _ _
    · rw [h]; exact ab _ _

/-- A point of a cell: a coordinate as mean of the vertex coordinates. -/
theorem width_bound (w : ℝ) (c l m : Fin 3 → ℝ) (hw : ∀ i j, |c i - c j| ≤ w) (hl : ∀ i, 0 ≤ l i)
    (hm : ∀ i, 0 ≤ m i) (sl : ∑ i, l i = 1) (sm : ∑ i, m i = 1) :
    |∑ i, l i * c i - ∑ j, m j * c j| ≤ w := by
  have e : ∑ i, l i * c i - ∑ j, m j * c j = ∑ i, ∑ j, l i * m j * (c i - c j) := by
    have e1 : ∑ i, l i * c i = ∑ i, ∑ j, l i * m j * c i := Finset.sum_congr rfl fun i _ => by
      rw [← Finset.sum_mul, ← Finset.mul_sum, sm, mul_one]
    have e2 : ∑ j, m j * c j = ∑ i, ∑ j, l i * m j * c j := by
      have : ∀ i, ∑ j, l i * m j * c j = l i * ∑ j, m j * c j := fun i => by
        rw [Finset.mul_sum]; exact Finset.sum_congr rfl fun j _ => by ring
      simp only [this]
      rw [← Finset.sum_mul, sl, one_mul]
    rw [e1, e2, ← Finset.sum_sub_distrib]
    refine Finset.sum_congr rfl fun i _ => ?_
    rw [← Finset.sum_sub_distrib]
    exact Finset.sum_congr rfl fun j _ => by ring
  rw [e]
  calc |∑ i, ∑ j, l i * m j * (c i - c j)| ≤ ∑ i, |∑ j, l i * m j * (c i - c j)| := Finset.abs_sum_le_sum_abs _ _
    _ ≤ ∑ i, ∑ j, |l i * m j * (c i - c j)| := Finset.sum_le_sum fun i _ => Finset.abs_sum_le_sum_abs _ _
    _ ≤ ∑ i, ∑ j, l i * m j * w := Finset.sum_le_sum fun i _ => Finset.sum_le_sum fun j _ => by
        rw [abs_mul, abs_of_nonneg (mul_nonneg (hl i) (hm j))]
        exact mul_le_mul_of_nonneg_left (hw i j) (mul_nonneg (hl i) (hm j))
    _ = w := by
        have : ∀ i, ∑ j, l i * m j * w = l i * w := fun i => by
          rw [← Finset.sum_mul, ← Finset.mul_sum, sm, mul_one]
        simp only [this]
        rw [← Finset.sum_mul, sl, one_mul]

/-- C99: before it is capped and interpolated, the automatic wetting and drying parameter of a cell is at least the
difference of depth of any two points of the cell (`l`, `m` barycentric coordinates of the points; linear bathymetry of
gradient `gx`, `gy`). -/
theorem C99_alpha (w0 : ℝ) (hw : w0 ≤ 0) (x y l m : Fin 3 → ℝ) (gx gy b : ℝ) (hl : ∀ i, 0 ≤ l i) (hm : ∀ i, 0 ≤ m i)
    (sl : ∑ i, l i = 1) (sm : ∑ i, m i = 1) :
    |(b + gx * ∑ i, l i * x i + gy * ∑ i, l i * y i) - (b + gx * ∑ i, m i * x i + gy * ∑ i, m i * y i)| ≤
      wdAlpha (widthLoop w0 x) (widthLoop w0 y) gx gy := by
  have hx := width_bound _ x l m (C99_widths w0 hw x).1 hl hm sl sm
  have hy := width_bound _ y l m (C99_widths w0 hw y).1 hl hm sl sm
  have e : (b + gx * ∑ i, l i * x i + gy * ∑ i, l i * y i) - (b + gx * ∑ i, m i * x i + gy * ∑ i, m i * y i)
      = gx * (∑ i, l i * x i - ∑ i, m i * x i) + gy * (∑ i, l i * y i - ∑ i, m i * y i) := by ring
  rw [e]
  unfold wdAlpha
  refine (abs_add_le _ _).trans ?_
  rw [abs_mul, abs_mul, mul_comm |gx|, mul_comm |gy|]
  exact add_le_add (mul_le_mul_of_nonneg_right hx (abs_nonneg _)) (mul_le_mul_of_nonneg_right hy (abs_nonneg _))

/-- C99: the capped parameter is within the bounds that are given, and unchanged if it was. -/
theorem C99_cap (lo hi : Option ℝ) (a : ℝ) (h : ∀ l u, lo = some l → hi = some u → l ≤ u) :
    (∀ l, lo = some l → l ≤ cap lo hi a) ∧ (∀ u, hi = some u → cap lo hi a ≤ u) ∧
      ((∀ l, lo = some l → l ≤ a) → (∀ u, hi = some u → a ≤ u) → cap lo hi a = a) := by
  cases lo <;> cases hi <;> simp_all [cap]

/-- C99: interpolation gives no new extrema: at a vertex of a visited cell the parameter is that of one of its cells. -/
theorem C99_alpha_extrema (order : List M.T) (a : M.T → ℝ) (v : M.V) (t : M.T) (ht : t ∈ order) (hv : ∃ i, M.vert t i = v) :
    ∃ t' ∈ order, (∃ i, M.vert t' i = v) ∧ interpP1 M order a v = some (a t') := by
  classical
  have key : ∀ (l : List M.T) (acc : Option ℝ), (∃ t ∈ l, ∃ i, M.vert t i = v) →
      ∃ t' ∈ l, (∃ i, M.vert t' i = v) ∧
        l.foldl (fun acc t => if ∃ i, M.vert t i = v then some (a t) else acc) acc = some (a t') := by
    intro l
    induction l with
    | nil => rintro acc ⟨t, ht, -⟩; simp at ht
    | cons s l ih =>
      rintro acc ⟨t, ht, hv⟩
      rw [List.foldl_cons]
      by_cases hl : ∃ t ∈ l, ∃ i, M.vert t i = v
      · obtain ⟨t', h1, h2, h3⟩ := ih (if ∃ i, M.vert s i = v then some (a s) else acc) hl
        exact ⟨t', List.mem_cons_of_mem _ h1, h2, h3⟩
      · have hs : t = s := by
          rcases List.mem_cons.1 ht with h | h
          · exact h
          · exact absurd ⟨t, h, hv⟩ hl
        subst hs
        refine ⟨t, List.mem_cons_self .., hv, ?_⟩
        rw [if_pos hv]
        have : ∀ (l : List M.T) (acc : Option ℝ), (¬∃ t ∈ l, ∃ i, M.vert t i = v) →
            l.foldl (fun acc t => if ∃ i, M.vert t i = v then some (a t) else acc) acc = acc := by
          intro l
          induction l with
          | nil => intro acc _; rfl
          | cons r l ih =>
            intro acc h
            rw [List.foldl_cons, if_neg fun hr => h ⟨r, List.mem_cons_self .., hr⟩]
            exact ih acc fun ⟨t, ht, hh⟩ => h ⟨t, List.mem_cons_of_mem _ ht, hh⟩
        exact this l _ hl
  unfold interpP1
  simpa using key order none ⟨t, ht, hv⟩

/-- C99 is violated after interpolation: with a steep cell next to a flat one, the parameter at the common vertices is the
one of the cell visited last. Visited in one order it is as large as the depth difference in the steep cell, in the other
order it is zero; the numbering of the cells decides. (The kite with a bathymetry falling by 16 over its large cell.) -/
theorem C99_alpha_order_violated : ∃ (a : kite.T → ℝ) (v : kite.V), (∃ i, kite.vert (1 : Fin 2) i = v) ∧
    (∀ t : Fin 2, ∀ c c' : Fin 3 → ℝ, (∀ i, c i = kite.x (kite.vert t i)) → (∀ i, c' i = kite.y (kite.vert t i)) →
      a t = wdAlpha (widthLoop 0 c) (widthLoop 0 c') (if t = 1 then 1 else 0) 0) ∧
    interpP1 kite [(0 : Fin 2), (1 : Fin 2)] a v = some 16 ∧ interpP1 kite [(1 : Fin 2), (0 : Fin 2)] a v = some 0 := by
  refine ⟨fun t : Fin 2 => if t = 1 then 16 else 0, (1 : Fin 4), ⟨2, rfl⟩, ?_, ?_, ?_⟩
  · intro t c c' hc _
    have h0 := hc 0
    have h1 := hc 1
    have h2 := hc 2
    fin_cases t
    · simp [wdAlpha]
    · have x0 : kite.x (kite.vert (1 : Fin 2) 0) = 16 := rfl
      have x1 : kite.x (kite.vert (1 : Fin 2) 1) = 0 := rfl
      have x2 : kite.x (kite.vert (1 : Fin 2) 2) = 0 := rfl
      change c 0 = kite.x (kite.vert (1 : Fin 2) 0) at h0
      change c 1 = kite.x (kite.vert (1 : Fin 2) 1) at h1
      change c 2 = kite.x (kite.vert (1 : Fin 2) 2) at h2
      rw [x0] at h0
      rw [x1] at h1
      rw [x2] at h2
      rw [widthLoop_eq, h0, h1, h2]
      norm_num [wdAlpha]
  · have i0 : ∃ i, kite.vert (0 : Fin 2) i = (1 : Fin 4) := ⟨1, rfl⟩
    have i1 : ∃ i, kite.vert (1 : Fin 2) i = (1 : Fin 4) := ⟨2, rfl⟩
    refine (List.foldl_cons ..).trans ?_
    refine (List.foldl_cons ..).trans ?_
    exact if_pos i1
  · have i0 : ∃ i, kite.vert (0 : Fin 2) i = (1 : Fin 4) := ⟨1, rfl⟩
    have i1 : ∃ i, kite.vert (1 : Fin 2) i = (1 : Fin 4) := ⟨2, rfl⟩
    refine (List.foldl_cons ..).trans ?_
    refine (List.foldl_cons ..).trans ?_
    exact if_pos i0

/-! ### Anisotropic cell size -/

/-- The length of a reference vector on the mesh. -/
def image (a b c d s t : ℝ) : ℝ := (a * s + b * t) ^ 2 + (c * s + d * t) ^ 2

/-- The smallest eigenvalue of `JᵀJ`, and the machine epsilon in the discriminant. -/
theorem aniso_core (a b c d : ℝ) :
    let r := ((a * a + c * c) + (b * b + d * d) - √(((a * a + c * c) - (b * b + d * d)) ^ 2
      + 4 * (a * b + c * d) * (b * a + d * c))) / 2
    0 ≤ r ∧ (∀ s t, r * (s ^ 2 + t ^ 2) ≤ image a b c d s t) ∧
      ∃ s t, s ^ 2 + t ^ 2 ≠ 0 ∧ image a b c d s t = r * (s ^ 2 + t ^ 2) := by
  intro r
  set j := a * b + c * d with hj
  set j0 := a * a + c * c with hj0
  set j1 := b * b + d * d with hj1
  have hji : b * a + d * c = j := by rw [hj]; ring
  set D := (j0 - j1) ^ 2 + 4 * j * (b * a + d * c) with hD
  have hDe : D = (j0 - j1) ^ 2 + (2 * j) ^ 2 := by rw [hD, hji]; ring
  have hD0 : 0 ≤ D := by rw [hDe]; positivity
  have hS : √D * √D = D := Real.mul_self_sqrt hD0
  have hS0 := Real.sqrt_nonneg D
  have hdet : j0 * j1 - j * j = (a * d - b * c) ^ 2 := by rw [hj, hj0, hj1]; ring
  have hI : 0 ≤ j0 + j1 := by rw [hj0, hj1]; nlinarith [mul_self_nonneg a, mul_self_nonneg b, mul_self_nonneg c, mul_self_nonneg d]
  have hle : √D ≤ j0 + j1 := by
    refine Real.sqrt_le_iff.2 ⟨hI, ?_⟩
    rw [hDe]
    nlinarith [sq_nonneg (a * d - b * c)]
  have hd1 : |j0 - j1| ≤ √D := by
    refine Real.le_sqrt_of_sq_le ?_
    rw [sq_abs, hDe]
    nlinarith [sq_nonneg (2 * j)]
  have hp : 0 ≤ j0 - r := by
    have := neg_le_of_abs_le hd1
    simp only [r]
    linarith
  have hq : 0 ≤ j1 - r := by
    have := le_of_abs_le hd1
    simp only [r]
    linarith
  have hpq : (j0 - r) * (j1 - r) = j * j := by
    have : (j0 - r) * (j1 - r) = (√D * √D - (j0 - j1) ^ 2) / 4 := by simp only [r]; ring
    rw [this, hS, hDe]
    ring
  have him : ∀ s t, image a b c d s t = j0 * s ^ 2 + 2 * j * s * t + j1 * t ^ 2 := fun s t => by
    rw [hj, hj0, hj1]; unfold image; ring
  refine ⟨by simp only [r]; linarith, fun s t => ?_, ?_⟩
  · rw [him]
    suffices h : 0 ≤ (j0 - r) * s ^ 2 + 2 * j * s * t + (j1 - r) * t ^ 2 by linarith
    generalize j0 - r = p at *
    generalize j1 - r = q at *
    rcases hp.eq_or_lt with h | h
    · have : j = 0 := by
        rw [← h, zero_mul] at hpq
        exact mul_self_eq_zero.1 hpq.symm
      rw [← h, this]
      nlinarith [mul_nonneg hq (sq_nonneg t)]
    · have e : p * (p * s ^ 2 + 2 * j * s * t + q * t ^ 2) = (p * s + j * t) ^ 2 := by
        have : p * q = j * j := hpq
        linear_combination t ^ 2 * this
      have := sq_nonneg (p * s + j * t)
      rw [← e] at this
      exact nonneg_of_mul_nonneg_right this h
  · rcases hp.eq_or_lt with h | h
    · have hj' : j = 0 := by
        rw [← h, zero_mul] at hpq
        exact mul_self_eq_zero.1 hpq.symm
      refine ⟨1, 0, by norm_num, ?_⟩
      rw [him, hj']
      linarith
    · refine ⟨j, -(j0 - r), ?_, ?_⟩
      · nlinarith [sq_nonneg j]
      · rw [him]
        linear_combination (j0 - r) * hpq

/-- C99: in exact arithmetic without the machine epsilon the anisotropic cell size is the smallest factor by which the map
from the reference cell stretches a vector. -/
theorem C99_aniso (a b c d : ℝ) : ∃ h, anisoSize 0 a b c d = some h ∧ 0 ≤ h ∧
    (∀ s t, h ^ 2 * (s ^ 2 + t ^ 2) ≤ image a b c d s t) ∧
    ∃ s t, s ^ 2 + t ^ 2 ≠ 0 ∧ image a b c d s t = h ^ 2 * (s ^ 2 + t ^ 2) := by
  have hc := aniso_core a b c d
  simp only at hc
  obtain ⟨h0, h1, h2⟩ := hc
  refine ⟨_, by simp only [anisoSize, add_zero]; rw [if_pos h0], Real.sqrt_nonneg _, ?_⟩
  rw [Real.sq_sqrt h0]
  exact ⟨h1, h2⟩

/-- C99: with the machine epsilon the size is still a lower bound, and its square is too small by at most
`√eps / 2` (`7.5e-9`). -/
theorem C99_aniso_eps (eps a b c d h : ℝ) (he : 0 ≤ eps) (hh : anisoSize eps a b c d = some h) :
    (∀ s t, h ^ 2 * (s ^ 2 + t ^ 2) ≤ image a b c d s t) ∧
    ∃ s t, s ^ 2 + t ^ 2 ≠ 0 ∧ image a b c d s t ≤ (h ^ 2 + √eps / 2) * (s ^ 2 + t ^ 2) := by
  have hc := aniso_core a b c d
  simp only at hc
  obtain ⟨h0, h1, s, t, hst, h2⟩ := hc
  simp only [anisoSize] at hh
  split at hh
  case isFalse => simp at hh
  case isTrue hr =>
  have e := Option.some.inj hh
  rw [← e, Real.sq_sqrt hr]
  set D := ((a * a + c * c) - (b * b + d * d)) ^ 2 + 4 * (a * b + c * d) * (b * a + d * c) with hD
  have hD0 : 0 ≤ D := by
    have : D = ((a * a + c * c) - (b * b + d * d)) ^ 2 + (2 * (a * b + c * d)) ^ 2 := by rw [hD]; ring
    rw [this]; positivity
  have m1 : √D ≤ √(D + eps) := Real.sqrt_le_sqrt (by linarith)
  have m2 : √(D + eps) ≤ √D + √eps := by
    refine Real.sqrt_le_iff.2 ⟨by positivity, ?_⟩
    have e1 := Real.mul_self_sqrt hD0
    have e2 := Real.mul_self_sqrt he
    nlinarith [mul_nonneg (Real.sqrt_nonneg D) (Real.sqrt_nonneg eps)]
  refine ⟨fun s t => ?_, s, t, hst, ?_⟩
  · refine le_trans (mul_le_mul_of_nonneg_right ?_ (by positivity)) (h1 s t)
    linarith
  · rw [h2]
    refine mul_le_mul_of_nonneg_right ?_ (by positivity)
    linarith

/-- C99 is violated for small cells: if the determinant is less than half the root of the machine epsilon (cells of area
below `3.7e-9`, in the units of the mesh) the size is not a number. -/
theorem C99_aniso_small_violated (eps a b c d : ℝ) (h : 4 * (a * d - b * c) ^ 2 < eps) :
    anisoSize eps a b c d = none := by
  simp only [anisoSize]
  rw [if_neg]
  intro h0
  set D := ((a * a + c * c) - (b * b + d * d)) ^ 2 + 4 * (a * b + c * d) * (b * a + d * c) with hD
  have hI : 0 ≤ (a * a + c * c) + (b * b + d * d) := by
    nlinarith [mul_self_nonneg a, mul_self_nonneg b, mul_self_nonneg c, mul_self_nonneg d]
  have hlt : (a * a + c * c) + (b * b + d * d) < √(D + eps) := by
    refine Real.lt_sqrt_of_sq_lt ?_
    rw [hD]
    nlinarith
  linarith

/-- A reference cell stretched to 3 by 1: the size is 1. -/
example : anisoSize 0 3 0 0 1 = some 1 := by
  have : √((((3:ℝ) * 3 + 0 * 0) - (0 * 0 + 1 * 1)) ^ 2 + 4 * (3 * 0 + 0 * 1) * (0 * 3 + 1 * 0) + 0) = 8 := by
    rw [show (((3:ℝ) * 3 + 0 * 0) - (0 * 0 + 1 * 1)) ^ 2 + 4 * (3 * 0 + 0 * 1) * (0 * 3 + 1 * 0) + 0 = 8 ^ 2 by norm_num]
    exact Real.sqrt_sq (by norm_num)
  simp only [anisoSize, this]
  norm_num

/-! ### C101: beta plane -/

theorem sin_taylor_pos (a δ : ℝ) (hδ : 0 ≤ δ) : |Real.sin (a + δ) - Real.sin a - δ * Real.cos a| ≤ δ ^ 2 / 2 := by
  have hcos : ∀ x, |Real.cos (a + x) - Real.cos a| ≤ |x| := fun x => by
    have := Real.abs_cos_sub_cos_le (a + x) a
    simpa using this
  have mono : ∀ e : ℝ, |e| ≤ 1 → 0 ≤ δ ^ 2 / 2 - e * (Real.sin (a + δ) - Real.sin a - δ * Real.cos a) := by
    intro e he
    have hd : ∀ x : ℝ, HasDerivAt (fun x => x ^ 2 / 2 - e * (Real.sin (a + x) - Real.sin a - x * Real.cos a))
        (x - e * (Real.cos (a + x) - Real.cos a)) x := by
      intro x
      have h1 : HasDerivAt (fun x : ℝ => x ^ 2 / 2) x x := by
        have := (hasDerivAt_pow 2 x).div_const 2
        simpa using this
      have h2 : HasDerivAt (fun x : ℝ => Real.sin (a + x)) (Real.cos (a + x)) x := by
        have := (Real.hasDerivAt_sin (a + x)).comp x ((hasDerivAt_id x).const_add a)
        rw [mul_one] at this
        exact this
      have h3 : HasDerivAt (fun x : ℝ => x * Real.cos a) (Real.cos a) x := by
        simpa using (hasDerivAt_id x).mul_const (Real.cos a)
      exact h1.sub (((h2.sub_const _).sub h3).const_mul e)
    have hm : MonotoneOn (fun x => x ^ 2 / 2 - e * (Real.sin (a + x) - Real.sin a - x * Real.cos a)) (Set.Ici 0) := by
      refine monotoneOn_of_deriv_nonneg (convex_Ici 0) (fun x _ => (hd x).continuousAt.continuousWithinAt)
        (fun x _ => (hd x).differentiableAt.differentiableWithinAt) fun x hx => ?_
      rw [(hd x).deriv]
      have hx0 : 0 ≤ x := by
        have : x ∈ Set.Ioi (0 : ℝ) := by simpa using hx
        exact le_of_lt this
      have h1 := hcos x
      rw [abs_of_nonneg hx0] at h1
      have h2 : |e * (Real.cos (a + x) - Real.cos a)| ≤ 1 * x := by
        rw [abs_mul]; exact mul_le_mul he h1 (abs_nonneg _) zero_le_one
      have := le_of_abs_le h2
      linarith
    have := hm (Set.mem_Ici.2 le_rfl) (Set.mem_Ici.2 hδ) hδ
    simpa using this
  rw [abs_le]
  have h1 := mono 1 (by norm_num)
  have h2 := mono (-1) (by norm_num)
  constructor <;> linarith

theorem sin_taylor (a δ : ℝ) : |Real.sin (a + δ) - Real.sin a - δ * Real.cos a| ≤ δ ^ 2 / 2 := by
  rcases le_total 0 δ with h | h
  · exact sin_taylor_pos a δ h
  · have := sin_taylor_pos (-a) (-δ) (by linarith)
    rw [show -a + -δ = -(a + δ) by ring, Real.sin_neg, Real.sin_neg, Real.cos_neg] at this
    rw [show Real.sin (a + δ) - Real.sin a - δ * Real.cos a
      = -(-Real.sin (a + δ) - -Real.sin a - -δ * Real.cos a) by ring, abs_neg]
    simpa using this

/-- Coriolis parameter of a sphere at a latitude in radians. -/
noncomputable def coriolis (lat : ℝ) : ℝ := 2 * 7.2921150e-5 * Real.sin lat

/-- C101: at `y_offset` the function is the Coriolis parameter of the given latitude (in degrees), and at the distance
`y - y_offset` north of it the error is at most `Ω ((y - y_offset)/R)²`. -/
theorem C101_accuracy (latitude yOffset y : ℝ) :
    betaPlane latitude yOffset yOffset = coriolis (latitude * Real.pi / 180) ∧
    |betaPlane latitude yOffset y - coriolis (latitude * Real.pi / 180 + (y - yOffset) / 6371e3)| ≤
      7.2921150e-5 * ((y - yOffset) / 6371e3) ^ 2 := by
  have ha : 2 * Real.pi * latitude / 360 = latitude * Real.pi / 180 := by ring
  unfold betaPlane betaParams coriolis omega radius
  simp only [ha]
  constructor
  · ring
  · have h := sin_taylor (latitude * Real.pi / 180) ((y - yOffset) / 6371e3)
    generalize latitude * Real.pi / 180 = α at *
    have e : 2 * 7.2921150e-5 * Real.sin α + 2 * 7.2921150e-5 * Real.cos α / 6371e3 * (y - yOffset)
        - 2 * 7.2921150e-5 * Real.sin (α + (y - yOffset) / 6371e3)
        = -(2 * 7.2921150e-5) * (Real.sin (α + (y - yOffset) / 6371e3) - Real.sin α
          - (y - yOffset) / 6371e3 * Real.cos α) := by ring
    rw [e, abs_mul, abs_neg, abs_of_pos (by norm_num)]
    nlinarith

/-- C101: north and south are mirror images; the equator has no Coriolis force on its line and the parameter grows northwards
at all latitudes between the poles. -/
theorem C101_mirror (latitude yOffset y : ℝ) :
    betaPlane (-latitude) (-yOffset) (-y) = -betaPlane latitude yOffset y ∧ betaPlane 0 yOffset yOffset = 0 := by
  unfold betaPlane betaParams
  dsimp only
  constructor
  · rw [show 2 * Real.pi * -latitude / 360 = -(2 * Real.pi * latitude / 360) by ring, Real.sin_neg, Real.cos_neg]
    ring
  · simp

theorem C101_north (latitude yOffset : ℝ) (h1 : -90 < latitude) (h2 : latitude < 90) :
    StrictMono (betaPlane latitude yOffset) := by
  intro y y' h
  unfold betaPlane betaParams omega radius
  have hpi := Real.pi_pos
  have hc : 0 < Real.cos (2 * Real.pi * latitude / 360) :=
    Real.cos_pos_of_mem_Ioo ⟨by nlinarith, by nlinarith⟩
  simp only
  have : 0 < 2 * 7.2921150e-5 * Real.cos (2 * Real.pi * latitude / 360) / 6371e3 := by positivity
  nlinarith

/-- At 45 degrees, 100 km off the centre, the error is less than 2e-8 (the parameter is about 1e-4). -/
example : |betaPlane 45 0 1e5 - coriolis (45 * Real.pi / 180 + (1e5 - 0) / 6371e3)| ≤ 2e-8 :=
  (C101_accuracy 45 0 1e5).2.trans (by norm_num)

end Verif.Geo
