import Verif.Geo.Model
import Mathlib.Geometry.Euclidean.Triangle
import Mathlib.Tactic.Linarith
import Mathlib.Tactic.FieldSimp
import Mathlib.Tactic.FinCases
import Mathlib.Tactic.NormNum
import Mathlib.Algebra.BigOperators.Ring.Finset
import Mathlib.Algebra.Order.BigOperators.Group.Finset

/-! C99: measures of mesh cells. -/

namespace Verif.Geo

variable {M : Mesh}

/-! ### Element size -/

/-- A proper mesh: no cell is degenerate and every vertex belongs to a cell. -/
structure Mesh.Proper (M : Mesh) : Prop where
  area_pos : ∀ t, 0 < M.area t
  covered : ∀ v, ∃ t i, M.vert t i = v

theorem mass_sub (a b c : M.V → ℝ) : mass M (fun v => a v - b v) c = mass M a c - mass M b c := by
  unfold mass
  rw [← Finset.sum_sub_distrib]
  refine Finset.sum_congr rfl fun t _ => ?_
  simp only [Fin.sum_univ_three]
  ring

theorem mass_self_eq_zero (hM : M.Proper) (d : M.V → ℝ) (h : mass M d d = 0) : d = fun _ => 0 := by
  have hn : ∀ t ∈ Finset.univ, 0 ≤ M.area t / 12 * (∑ i, d (M.vert t i) * d (M.vert t i)
      + (∑ i, d (M.vert t i)) * ∑ i, d (M.vert t i)) := fun t _ => by
    have := hM.area_pos t
    have h1 : 0 ≤ ∑ i, d (M.vert t i) * d (M.vert t i) := Finset.sum_nonneg fun i _ => mul_self_nonneg _
    have h2 := mul_self_nonneg (∑ i, d (M.vert t i))
    positivity
  have hz := (Finset.sum_eq_zero_iff_of_nonneg hn).1 h
  funext v
  obtain ⟨t, i, rfl⟩ := hM.covered v
  have ht := hz t (Finset.mem_univ _)
  have ha := hM.area_pos t
  have h2 := mul_self_nonneg (∑ i, d (M.vert t i))
  have h3 : ∑ i, d (M.vert t i) * d (M.vert t i) + (∑ i, d (M.vert t i)) * ∑ i, d (M.vert t i) = 0 := by
    rcases mul_eq_zero.1 ht with h | h
    · linarith
    · exact h
  have h4 : d (M.vert t i) * d (M.vert t i) ≤ ∑ i, d (M.vert t i) * d (M.vert t i) :=
    Finset.single_le_sum (f := fun i => d (M.vert t i) * d (M.vert t i)) (fun i _ => mul_self_nonneg _)
      (Finset.mem_univ i)
  have h5 : d (M.vert t i) * d (M.vert t i) = 0 := le_antisymm (by linarith) (mul_self_nonneg _)
  exact mul_self_eq_zero.1 h5

/-- C99: the element size is well defined. -/
theorem C99_unique (hM : M.Proper) (h h' : M.V → ℝ) (hh : IsElemSize M h) (hh' : IsElemSize M h') : h = h' := by
  have := mass_self_eq_zero hM (fun v => h v - h' v) (by rw [mass_sub, hh, hh', sub_self])
  funext v
  have e : h v - h' v = 0 := congrFun this v
  linarith

/-- C99: on a mesh of cells of one area the element size is the root of that area. -/
theorem C99_uniform (hM : M.Proper) (a : ℝ) (ha : ∀ t, M.area t = a) (h : M.V → ℝ) (hh : IsElemSize M h) (v : M.V) :
    h v = √a := by
  refine congrFun (C99_unique hM h (fun _ => √a) hh fun test => ?_) v
  unfold mass load
  refine Finset.sum_congr rfl fun t _ => ?_
  simp only [Fin.sum_univ_three, ha]
  ring

/-- C99: averaged over the mesh the element size is right. -/
theorem C99_mean (h : M.V → ℝ) (hh : IsElemSize M h) :
    ∑ t, M.area t * ((h (M.vert t 0) + h (M.vert t 1) + h (M.vert t 2)) / 3) = ∑ t, M.area t * √(M.area t) := by
  have e := hh fun _ => 1
  unfold mass load at e
  simp only [Fin.sum_univ_three] at e
  calc _ = ∑ t, M.area t / 12 * (h (M.vert t 0) * 1 + h (M.vert t 1) * 1 + h (M.vert t 2) * 1
        + (h (M.vert t 0) + h (M.vert t 1) + h (M.vert t 2)) * (1 + 1 + 1)) :=
        Finset.sum_congr rfl fun t _ => by ring
    _ = _ := e
    _ = _ := Finset.sum_congr rfl fun t _ => by ring

/-- C99: the area of a cell is half the product of an edge and the height on it; `(X, Y)` is the foot of the height. -/
theorem C99_area (t : M.T) (s X Y : ℝ)
    (hX : X = M.x (M.vert t 0) + s * (M.x (M.vert t 1) - M.x (M.vert t 0)))
    (hY : Y = M.y (M.vert t 0) + s * (M.y (M.vert t 1) - M.y (M.vert t 0)))
    (hp : (M.x (M.vert t 2) - X) * (M.x (M.vert t 1) - M.x (M.vert t 0))
      + (M.y (M.vert t 2) - Y) * (M.y (M.vert t 1) - M.y (M.vert t 0)) = 0) :
    M.area t = 1 / 2 * √((M.x (M.vert t 1) - M.x (M.vert t 0)) ^ 2 + (M.y (M.vert t 1) - M.y (M.vert t 0)) ^ 2)
      * √((M.x (M.vert t 2) - X) ^ 2 + (M.y (M.vert t 2) - Y) ^ 2) := by
  unfold Mesh.area
  subst hX hY
  generalize M.x (M.vert t 0) = x0 at *
  generalize M.x (M.vert t 1) = x1 at *
  generalize M.x (M.vert t 2) = x2 at *
  generalize M.y (M.vert t 0) = y0 at *
  generalize M.y (M.vert t 1) = y1 at *
  generalize M.y (M.vert t 2) = y2 at *
  rw [mul_assoc, ← Real.sqrt_mul (by positivity), ← Real.sqrt_sq_eq_abs]
  have : ((x1 - x0) * (y2 - y0) - (x2 - x0) * (y1 - y0)) ^ 2
      = ((x1 - x0) ^ 2 + (y1 - y0) ^ 2) * ((x2 - (x0 + s * (x1 - x0))) ^ 2 + (y2 - (y0 + s * (y1 - y0))) ^ 2) := by
    linear_combination (-1) * ((x2 - (x0 + s * (x1 - x0))) * (x1 - x0) + (y2 - (y0 + s * (y1 - y0))) * (y1 - y0)) * hp
  rw [this]
  ring

/-- C99: at a corner of the mesh that belongs to one cell only, the size and the mean of its neighbours add up to
twice the root of the area: a corner cell among larger ones gets a value that is too small. -/
theorem C99_corner (hM : M.Proper) (h : M.V → ℝ) (hh : IsElemSize M h) (t : M.T) (v a b : M.V)
    (h0 : M.vert t 0 = v) (h1 : M.vert t 1 = a) (h2 : M.vert t 2 = b) (ha : a ≠ v) (hb : b ≠ v)
    (honly : ∀ t' i, M.vert t' i = v → t' = t) :
    h v + (h a + h b) / 2 = 2 * √(M.area t) := by
  classical
  have e := hh fun w => if w = v then 1 else 0
  unfold mass load at e
  rw [Finset.sum_eq_single t, Finset.sum_eq_single t] at e
  · simp only [Fin.sum_univ_three, h0, h1, h2, ha, hb, if_true, if_false] at e
    have hp := hM.area_pos t
    have : M.area t / 12 * (2 * h v + h a + h b - 4 * √(M.area t)) = 0 := by linarith
    rcases mul_eq_zero.1 this with h | h <;> linarith
  · intro t' _ ht'
    rw [Finset.sum_eq_zero, mul_zero]
    intro i _
    exact if_neg fun hv => ht' (honly t' i hv)
  · intro h; exact absurd (Finset.mem_univ _) h
  · intro t' _ ht'
    have hz : ∀ i, (if M.vert t' i = v then (1 : ℝ) else 0) = 0 := fun i => if_neg fun hv => ht' (honly t' i hv)
    simp [hz]
  · intro h; exact absurd (Finset.mem_univ _) h

/-- Two triangles: a small one of area 1 and a large one of area 16 on a common edge. -/
noncomputable def kite : Mesh where
  V := Fin 4
  T := Fin 2
  x := ![-1, 0, 0, 16]
  y := ![0, -1, 1, 0]
  vert := ![![0, 1, 2], ![3, 2, 1]]

theorem kite_area : kite.area (0 : Fin 2) = 1 ∧ kite.area (1 : Fin 2) = 16 := by
  constructor
  · change |((0 : ℝ) - (-1)) * (1 - 0) - (0 - (-1)) * (-1 - 0)| / 2 = 1
    norm_num
  · change |((0 : ℝ) - 16) * (-1 - 0) - (0 - 16) * (1 - 0)| / 2 = 16
    norm_num

theorem kite_proper : kite.Proper where
  area_pos t := by
    change Fin 2 at t
    fin_cases t
    · exact kite_area.1 ▸ one_pos
    · have := kite_area.2; change 0 < kite.area (1 : Fin 2); rw [this]; norm_num
  covered v := by
    change Fin 4 at v
    fin_cases v
    · exact ⟨(0 : Fin 2), 0, rfl⟩
    · exact ⟨(0 : Fin 2), 1, rfl⟩
    · exact ⟨(0 : Fin 2), 2, rfl⟩
    · exact ⟨(1 : Fin 2), 0, rfl⟩

/-- The element size on the two triangles. -/
noncomputable def kiteSize : kite.V → ℝ := (![-31 / 17, 65 / 17, 65 / 17, 71 / 17] : Fin 4 → ℝ)

theorem kite_size : IsElemSize kite kiteSize := by
  intro test
  have s1 : √(1 : ℝ) = 1 := Real.sqrt_one
  have s2 : √(16 : ℝ) = 4 := by rw [show (16 : ℝ) = 4 ^ 2 by norm_num]; exact Real.sqrt_sq (by norm_num)
  have l := Fin.sum_univ_two fun t : Fin 2 => kite.area t / 12 * (∑ i, kiteSize (kite.vert t i) * test (kite.vert t i)
    + (∑ i, kiteSize (kite.vert t i)) * ∑ i, test (kite.vert t i))
  have r := Fin.sum_univ_two fun t : Fin 2 => kite.area t / 3 * √(kite.area t) * ∑ i, test (kite.vert t i)
  refine l.trans (Eq.trans ?_ r.symm)
  rw [kite_area.1, kite_area.2, s1, s2]
  simp only [Fin.sum_univ_three]
  have k0 : ∀ i, kiteSize (kite.vert (0 : Fin 2) i) = (![-31 / 17, 65 / 17, 65 / 17] : Fin 3 → ℝ) i := fun i => by
    fin_cases i <;> rfl
  have k1 : ∀ i, kiteSize (kite.vert (1 : Fin 2) i) = (![71 / 17, 65 / 17, 65 / 17] : Fin 3 → ℝ) i := fun i => by
    fin_cases i <;> rfl
  have t1 : kite.vert (1 : Fin 2) 1 = kite.vert (0 : Fin 2) 2 := rfl
  have t2 : kite.vert (1 : Fin 2) 2 = kite.vert (0 : Fin 2) 1 := rfl
  simp only [k0, k1]
  rw [t1, t2]
  simp only [Matrix.cons_val_zero, Matrix.cons_val_one, Matrix.cons_val]
  ring

/-- C99 is violated: the element size is negative at the tip of a small cell next to a cell sixteen times larger. -/
theorem C99_negative_violated :
    kite.Proper ∧ (∃ h, IsElemSize kite h) ∧ ∀ h, IsElemSize kite h → ∃ v, h v < 0 := by
  refine ⟨kite_proper, ⟨_, kite_size⟩, fun h hh => ⟨(0 : Fin 4), ?_⟩⟩
  rw [C99_unique kite_proper h _ hh kite_size]
  norm_num [kiteSize]

/-! ### Minimum angle -/

theorem minIndex_le (e : Fin 3 → ℝ) (j : Fin 3) : e (minIndex e) ≤ e j := by
  unfold minIndex
  by_cases h1 : e 1 < e 0
  · simp only [h1, if_true]
    by_cases h2 : e 2 < e 1
    · simp only [h2, if_true]; fin_cases j <;> simp <;> linarith
    · simp only [h2, if_false]; fin_cases j <;> simp <;> linarith
  · simp only [h1, if_false]
    by_cases h2 : e 2 < e 0
    · simp only [h2, if_true]; fin_cases j <;> simp <;> linarith
    · simp only [h2, if_false]; fin_cases j <;> simp <;> linarith

/-- The angle opposite to an edge follows from the edges. -/
theorem minAngle_eq (e θ : Fin 3 → ℝ) (he : ∀ i, 0 < e i) (h0 : ∀ i, 0 ≤ θ i) (hpi : ∀ i, θ i ≤ Real.pi)
    (hcos : ∀ i j k, i ≠ j → i ≠ k → j ≠ k →
      e i * e i = e j * e j + e k * e k - 2 * e j * e k * Real.cos (θ i)) :
    minAngle e = some (θ (minIndex e)) := by
  have hc : angleNum e / angleDen e = Real.cos (θ (minIndex e)) := by
    unfold angleNum angleDen
    generalize minIndex e = k
    have a0 := he 0
    have a1 := he 1
    have a2 := he 2
    have b0 := hcos 0 1 2 (by decide) (by decide) (by decide)
    have b1 := hcos 1 0 2 (by decide) (by decide) (by decide)
    have b2 := hcos 2 0 1 (by decide) (by decide) (by decide)
    simp only [Fin.sum_univ_three, Fin.prod_univ_three]
    fin_cases k <;> simp <;> rw [div_eq_iff (by positivity)] <;> linarith
  unfold minAngle
  simp only [hc]
  rw [if_pos ⟨Real.neg_one_le_cos _, Real.cos_le_one _⟩, Real.arccos_cos (h0 _) (hpi _)]

open EuclideanGeometry in
/-- C99: for a triangle the kernel gives its smallest angle, in whatever order the edges are stored. -/
theorem C99_min_angle (p : Fin 3 → EuclideanSpace ℝ (Fin 2)) (hp : ¬Collinear ℝ {p 0, p 1, p 2})
    (s : Equiv.Perm (Fin 3)) :
    ∃ k, minAngle (fun i => dist (p (s i + 1)) (p (s i + 2))) = some (∠ (p (k + 1)) (p k) (p (k + 2))) ∧
      ∀ j, ∠ (p (k + 1)) (p k) (p (k + 2)) ≤ ∠ (p (j + 1)) (p j) (p (j + 2)) := by
  have hp1 : ¬Collinear ℝ {p 1, p 2, p 0} := by
    rwa [show ({p 1, p 2, p 0} : Set (EuclideanSpace ℝ (Fin 2))) = {p 0, p 1, p 2} by grind]
  have hp2 : ¬Collinear ℝ {p 2, p 0, p 1} := by
    rwa [show ({p 2, p 0, p 1} : Set (EuclideanSpace ℝ (Fin 2))) = {p 0, p 1, p 2} by grind]
  have c0 := dist_sq_eq_dist_sq_add_dist_sq_sub_two_mul_dist_mul_dist_mul_cos_angle (p 1) (p 0) (p 2)
  have c1 := dist_sq_eq_dist_sq_add_dist_sq_sub_two_mul_dist_mul_dist_mul_cos_angle (p 2) (p 1) (p 0)
  have c2 := dist_sq_eq_dist_sq_add_dist_sq_sub_two_mul_dist_mul_dist_mul_cos_angle (p 0) (p 2) (p 1)
  have d01 := dist_comm (p 0) (p 1)
  have d02 := dist_comm (p 0) (p 2)
  have d12 := dist_comm (p 1) (p 2)
  rw [← d01, ← d02] at c0
  rw [← d02, ← d12] at c1
  have hcos : ∀ i j k : Fin 3, i ≠ j → i ≠ k → j ≠ k →
      dist (p (i + 1)) (p (i + 2)) * dist (p (i + 1)) (p (i + 2)) =
        dist (p (j + 1)) (p (j + 2)) * dist (p (j + 1)) (p (j + 2))
        + dist (p (k + 1)) (p (k + 2)) * dist (p (k + 1)) (p (k + 2))
        - 2 * dist (p (j + 1)) (p (j + 2)) * dist (p (k + 1)) (p (k + 2))
          * Real.cos (∠ (p (i + 1)) (p i) (p (i + 2))) := by
    intro i j k h1 h2 h3
    fin_cases i <;> fin_cases j <;> fin_cases k <;>
      first
      | exact absurd rfl h1
      | exact absurd rfl h2
      | exact absurd rfl h3
      | (simp only [Fin.isValue, Fin.zero_eta, Fin.mk_one, Fin.reduceFinMk, Fin.reduceAdd, zero_add, ← d02]
         linarith)
  have hord : ∀ i j : Fin 3, dist (p (i + 1)) (p (i + 2)) ≤ dist (p (j + 1)) (p (j + 2)) →
      ∠ (p (i + 1)) (p i) (p (i + 2)) ≤ ∠ (p (j + 1)) (p j) (p (j + 2)) := by
    have q : ∀ a b c : EuclideanSpace ℝ (Fin 2), ¬Collinear ℝ {a, b, c} → dist a b ≤ dist a c →
        ∠ a c b ≤ ∠ a b c := fun a b c h hd => (angle_le_iff_dist_le h).2 hd
    have q01 := q (p 2) (p 1) (p 0) (by rwa [show ({p 2, p 1, p 0} : Set (EuclideanSpace ℝ (Fin 2))) =
      {p 0, p 1, p 2} by grind])
    have q10 := q (p 2) (p 0) (p 1) hp2
    have q02 := q (p 1) (p 2) (p 0) hp1
    have q20 := q (p 1) (p 0) (p 2) (by rwa [show ({p 1, p 0, p 2} : Set (EuclideanSpace ℝ (Fin 2))) =
      {p 0, p 1, p 2} by grind])
    have q12 := q (p 0) (p 2) (p 1) (by rwa [show ({p 0, p 2, p 1} : Set (EuclideanSpace ℝ (Fin 2))) =
      {p 0, p 1, p 2} by grind])
    have q21 := q (p 0) (p 1) (p 2) hp
    rw [← d12, ← d02, angle_comm (p 2) (p 0) (p 1)] at q01
    rw [← d12, ← d02, angle_comm (p 2) (p 0) (p 1)] at q10
    rw [← d01] at q02 q20
    rw [angle_comm (p 1) (p 2) (p 0)] at q02 q20
    rw [angle_comm (p 0) (p 1) (p 2)] at q12 q21
    intro i j
    fin_cases i <;> fin_cases j <;> simp only [Fin.isValue, Fin.zero_eta, Fin.mk_one, Fin.reduceFinMk, Fin.reduceAdd,
      zero_add, ← d02, le_refl, imp_self] <;> assumption
  have hpos : ∀ i : Fin 3, 0 < dist (p (i + 1)) (p (i + 2)) := fun i => by
    have n01 := ne₁₂_of_not_collinear hp
    have n12 := ne₂₃_of_not_collinear hp
    have n02 := ne₁₃_of_not_collinear hp
    refine dist_pos.2 ?_
    fin_cases i
    · exact n12
    · exact n02.symm
    · exact n01
  refine ⟨s (minIndex fun i => dist (p (s i + 1)) (p (s i + 2))), ?_, fun j => hord _ _ ?_⟩
  · exact minAngle_eq _ (fun i => ∠ (p (s i + 1)) (p (s i)) (p (s i + 2))) (fun i => hpos _) (fun i => angle_nonneg _ _ _)
      (fun i => angle_le_pi _ _ _) fun i j k h1 h2 h3 =>
        hcos _ _ _ (s.injective.ne h1) (s.injective.ne h2) (s.injective.ne h3)
  · have := minIndex_le (fun i => dist (p (s i + 1)) (p (s i + 2))) (s.symm j)
    simpa using this

end Verif.Geo
