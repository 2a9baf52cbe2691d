import Verif.Coord.Model
import Mathlib.Tactic.Linarith
import Mathlib.Tactic.FieldSimp
import Mathlib.Tactic.Ring

/-!
Property C53.
-/

namespace Verif.Coord

open Real

/-! ### Rotation -/

/-- C53: the call and the matrix of the documentation are the same rotation. -/
theorem C53_matrix (th : ℝ) (v : ℝ × ℝ) : rotate (sin th) (cos th) v.1 v.2 = applyR th v := by
  unfold rotate applyR
  ext <;> simp <;> ring

/-- C53: length (and inner products) are kept. -/
theorem C53_isometry (th : ℝ) (v w : ℝ × ℝ) :
    (applyR th v).1 * (applyR th w).1 + (applyR th v).2 * (applyR th w).2
      = v.1 * w.1 + v.2 * w.2 := by
  have := sin_sq_add_cos_sq th
  unfold applyR
  simp only
  linear_combination (v.1 * w.1 + v.2 * w.2) * this

/-- C53: the rotation is linear. -/
theorem C53_linear (th a b : ℝ) (v w : ℝ × ℝ) :
    applyR th (a * v.1 + b * w.1, a * v.2 + b * w.2)
      = (a * (applyR th v).1 + b * (applyR th w).1, a * (applyR th v).2 + b * (applyR th w).2) := by
  unfold applyR
  ext <;> simp <;> ring

/-- C53: the rotation is invertible, by the opposite angle, and keeps the orientation. -/
theorem C53_inverse (th : ℝ) (v w : ℝ × ℝ) :
    applyR (-th) (applyR th v) = v ∧
    (applyR th v).1 * (applyR th w).2 - (applyR th v).2 * (applyR th w).1
      = v.1 * w.2 - v.2 * w.1 := by
  have := sin_sq_add_cos_sq th
  constructor
  · unfold applyR
    rw [cos_neg, sin_neg]
    ext
    · simp only
      linear_combination v.1 * this
    · simp only
      linear_combination v.2 * this
  · unfold applyR
    simp only
    linear_combination (v.1 * w.2 - v.2 * w.1) * this

theorem cos_sin_atan2 (y x : ℝ) (h : x ^ 2 + y ^ 2 ≠ 0) :
    cos (atan2 y x) = x / sqrt (x ^ 2 + y ^ 2) ∧ sin (atan2 y x) = y / sqrt (x ^ 2 + y ^ 2) := by
  have hz : (⟨x, y⟩ : ℂ) ≠ 0 := by
    intro h0
    rw [Complex.ext_iff] at h0
    simp at h0
    apply h
    rw [h0.1, h0.2]; ring
  have hn : ‖(⟨x, y⟩ : ℂ)‖ = sqrt (x ^ 2 + y ^ 2) := by
    rw [Complex.norm_def, Complex.normSq_mk]; congr 1; ring
  unfold atan2
  rw [Complex.cos_arg hz, Complex.sin_arg, hn]
  exact ⟨rfl, rfl⟩

/-- C53: a vector pointing north is turned into the direction in which the image of the point moves
when the point moves north. -/
theorem C53_north (trans : ℝ → ℝ → ℝ × ℝ) (x y d : ℝ) (hd : 0 < d)
    (h : trans x (y + d) ≠ trans x y) :
    let dx := (trans x (y + d)).1 - (trans x y).1
    let dy := (trans x (y + d)).2 - (trans x y).2
    applyR (theta trans x y d) (0, 1) = (dx / sqrt (dx ^ 2 + dy ^ 2), dy / sqrt (dx ^ 2 + dy ^ 2)) := by
  intro dx dy
  have hne : dx ^ 2 + dy ^ 2 ≠ 0 := by
    intro h0
    have h1 : dx = 0 := pow_eq_zero_iff (n := 2) (by norm_num) |>.1 (by nlinarith [sq_nonneg dx, sq_nonneg dy])
    have h2 : dy = 0 := pow_eq_zero_iff (n := 2) (by norm_num) |>.1 (by nlinarith [sq_nonneg dx, sq_nonneg dy])
    exact h (Prod.ext (sub_eq_zero.1 h1) (sub_eq_zero.1 h2))
  have hth : theta trans x y d = atan2 (-(dx / d)) (dy / d) := rfl
  have hs : (dy / d) ^ 2 + (-(dx / d)) ^ 2 = (dx ^ 2 + dy ^ 2) / d ^ 2 := by field_simp; ring
  have hq : (dy / d) ^ 2 + (-(dx / d)) ^ 2 ≠ 0 := by
    rw [hs]; exact div_ne_zero hne (by positivity)
  obtain ⟨hc, hsn⟩ := cos_sin_atan2 (-(dx / d)) (dy / d) hq
  rw [hs, sqrt_div' _ (by positivity), sqrt_sq hd.le] at hc hsn
  have hr : sqrt (dx ^ 2 + dy ^ 2) ≠ 0 := by
    intro h0
    exact hne (le_antisymm (sqrt_eq_zero'.1 h0) (by positivity))
  rw [hth]
  unfold applyR
  rw [hc, hsn]
  ext
  · simp only
    field_simp
    ring
  · simp only
    field_simp
    ring

/-- C53: for a transformation that is a rotation by `phi` with scaling `k > 0` and a shift, every
vector is rotated by exactly `phi`. -/
theorem C53_conformal (k phi b1 b2 x y d : ℝ) (hk : 0 < k) (hd : 0 < d) (v : ℝ × ℝ) :
    applyR (theta (fun x y => (k * (cos phi * x - sin phi * y) + b1,
      k * (sin phi * x + cos phi * y) + b2)) x y d) v = applyR phi v := by
  have hth : theta (fun x y => (k * (cos phi * x - sin phi * y) + b1,
      k * (sin phi * x + cos phi * y) + b2)) x y d = atan2 (k * sin phi) (k * cos phi) := by
    unfold theta
    simp only
    congr 1 <;> field_simp <;> ring
  have hsc := sin_sq_add_cos_sq phi
  have hq : (k * cos phi) ^ 2 + (k * sin phi) ^ 2 = k ^ 2 := by linear_combination k ^ 2 * hsc
  obtain ⟨h1, h2⟩ := cos_sin_atan2 (k * sin phi) (k * cos phi) (by rw [hq]; positivity)
  rw [hq, sqrt_sq hk.le] at h1 h2
  rw [hth]
  unfold applyR
  rw [h1, h2]
  rw [mul_div_cancel_left₀ _ hk.ne', mul_div_cancel_left₀ _ hk.ne']

/-- C53: the rotator treats every point separately: element `i` of the result for whole arrays is the
result for node `i`, the rotation by the angle of that point. -/
theorem C53_pointwise_rotation (trans : ℝ → ℝ → ℝ × ℝ) (pts : List (ℝ × ℝ)) (vx vy : List ℝ)
    (h1 : vx.length = pts.length) (h2 : vy.length = pts.length) :
    ∃ out, (Rotator.mk' trans pts).all vx vy = some out ∧ out.length = pts.length ∧
      ∀ (i : ℕ) (hi : i < pts.length), out[i]? = (Rotator.mk' trans pts).one vx[i] vy[i] i ∧
        out[i]? = some (applyR (theta trans pts[i].1 pts[i].2 1e-6) (vx[i], vy[i])) := by
  refine ⟨_, by rw [Rotator.all, if_pos (by simp [Rotator.mk', h1, h2])], ?_, ?_⟩
  · simp [Rotator.mk', h1, h2]
  · intro i hi
    have e : (Rotator.mk' trans pts).one vx[i] vy[i] i
        = some (applyR (theta trans pts[i].1 pts[i].2 1e-6) (vx[i], vy[i])) := by
      rw [← C53_matrix]
      simp [Rotator.one, Rotator.mk', hi, delta0]
    have e2 : (List.zipWith (fun v p => rotate p.1 p.2 v.1 v.2) (vx.zip vy)
        ((Rotator.mk' trans pts).sin'.zip (Rotator.mk' trans pts).cos'))[i]?
        = some (applyR (theta trans pts[i].1 pts[i].2 1e-6) (vx[i], vy[i])) := by
      rw [← C53_matrix]
      rw [List.getElem?_eq_getElem (by simp [Rotator.mk', h1, h2, hi])]
      simp [Rotator.mk', delta0]
    exact ⟨e2.trans e.symm, e2⟩

/-! ### Coordinates -/

theorem scatter_spec {α β : Type} (f : α → α → β × β) (fin : α → Bool) (d : β)
    (x y : List α) (h : x.length = y.length) (g : β × β → β) :
    scatter (List.zipWith (fun a b => fin a && fin b) x y)
      ((List.zipWith f (gather (List.zipWith (fun a b => fin a && fin b) x y) x)
        (gather (List.zipWith (fun a b => fin a && fin b) x y) y)).map g) (x.map fun _ => d)
      = List.zipWith (fun a b => if fin a && fin b then g (f a b) else d) x y := by
  induction x generalizing y with
  | nil => cases y <;> simp [scatter]
  | cons a x ih =>
    cases y with
    | nil => simp at h
    | cons b y =>
      have := ih y (by simpa using h)
      cases hg : fin a && fin b
      · simp only [List.zipWith_cons_cons, hg, gather, List.map_cons, scatter, this, Bool.false_eq_true,
          if_false]
      · simp only [List.zipWith_cons_cons, hg, gather, List.map_cons, scatter, this, if_true]

/-- C53: for arrays of floats every point is transformed by itself; a point with a coordinate that is
not finite gives nan and does not affect the others. -/
theorem C53_points_partial (trans : ℝ → ℝ → Val × Val) (x y : List Val) (h : x.length = y.length) :
    ∃ a b, projTransform id trans x y = some (a, b) ∧ a.length = x.length ∧ b.length = x.length ∧
      ∀ (i : ℕ) (hi : i < x.length),
        (∀ p q, x[i] = some p → y[i] = some q → a[i]? = some (trans p q).1 ∧ b[i]? = some (trans p q).2) ∧
        ((x[i] = none ∨ y[i] = none) → a[i]? = some none ∧ b[i]? = some none) := by
  unfold projTransform
  rw [if_pos h]
  simp only
  have hb : (y.map fun _ => id (none : Val)) = x.map fun _ => id (none : Val) := by
    rw [List.map_const', List.map_const', h]
  rw [hb]
  unfold goodIx
  rw [scatter_spec _ Option.isSome _ x y h,
    scatter_spec _ Option.isSome _ x y h]
  refine ⟨_, _, rfl, by simp [h], by simp [h], ?_⟩
  intro i hi
  have hi' : i < y.length := h ▸ hi
  constructor
  · intro p q hp hq
    constructor <;>
    · rw [List.getElem?_eq_getElem (by simp [hi, hi'])]
      simp [hp, hq]
  · intro hn
    constructor <;>
    · rw [List.getElem?_eq_getElem (by simp [hi, hi'])]
      rcases hn with hn | hn <;> simp [hn]

/-- C53: arrays of different length are refused. -/
theorem C53_shapes (cast : Val → Val) (trans : ℝ → ℝ → Val × Val) (x y : List Val)
    (h : x.length ≠ y.length) : projTransform cast trans x y = none := by
  unfold projTransform; rw [if_neg h]

/-- C53 is violated for arrays of integers: the result is cut to whole numbers. -/
theorem C53_integer_violated :
    projTransform castInt (fun x y => (some (x / 2), some y)) [some 1] [some 1]
      = some ([some 0], [some 1]) := by
  simp [projTransform, goodIx, gather, scatter, castInt]
  norm_num

/-- C53: the positive longitude is in [0, 360) and differs from the longitude by whole turns. -/
theorem C53_positive_lon (lon : ℝ) :
    0 ≤ positiveLon lon ∧ positiveLon lon < 360 ∧ ∃ n : ℤ, positiveLon lon = lon + 360 * n := by
  have h1 := Int.floor_le (lon / 360)
  have h2 := Int.lt_floor_add_one (lon / 360)
  rw [le_div_iff₀ (by norm_num)] at h1
  rw [div_lt_iff₀ (by norm_num)] at h2
  unfold positiveLon
  refine ⟨by linarith, by linarith, -⌊lon / 360⌋, by push_cast; ring⟩

/-- The identity transformation meets the hypotheses of `C53_north`. -/
example : (fun x y : ℝ => (x, y)) 0 (0 + 1) ≠ (fun x y : ℝ => (x, y)) 0 0 := by simp

end Verif.Coord
