import Verif.Bound2.Props
import Mathlib.Tactic.FinCases

/-!
C125 on the square of two triangles: the hypotheses hold, and the limiter lets a new maximum pass at an inflow boundary.
-/

namespace Verif.Bound2

open Verif.Dg

/-- The triangle of a point of the cell rule: the lower triangle is `false`, the upper one `true`. -/
def sqOfC : SqC → Bool
  | .l0 | .l1 | .l2 => false
  | _ => true

/-- The triangle of a point of the boundary. -/
def sqOfB : SqB → Bool
  | .b0 | .b1 | .b2 | .l0 | .l1 | .l2 => false
  | _ => true

/-- The two triangles. -/
abbrev sqCells : Cells square where
  K := Bool
  ofC := sqOfC
  ofP := fun _ => false
  ofM := fun _ => true
  ofB := sqOfB

/-- Basis functions of the lower triangle, with nodes (0,0), (1,0), (0,1). -/
def loB : Fin 3 → Quad
  | 0 => ⟨1, -1, -1, 0, 0, 0⟩
  | 1 => ⟨0, 1, 0, 0, 0, 0⟩
  | 2 => ⟨0, 0, 1, 0, 0, 0⟩

/-- Basis functions of the upper triangle, with nodes (1,0), (1,1), (0,1). -/
def upB : Fin 3 → Quad
  | 0 => ⟨1, 0, -1, 0, 0, 0⟩
  | 1 => ⟨-1, 1, 1, 0, 0, 0⟩
  | 2 => ⟨1, -1, 0, 0, 0, 0⟩

/-- Piecewise linear functions on the square. -/
noncomputable abbrev sqSpace : Space square (Fin 3) where
  cells := sqCells
  basis := fun x i => squareField (loB i) (upB i) x

/-- Coordinates of the points, with the inequalities of their triangle. -/
theorem sq_point (x : Pt square) : ∃ a b : ℝ, 0 ≤ a ∧ 0 ≤ b ∧ a ≤ 1 ∧ b ≤ 1 ∧
    ((sqCells.at x = false ∧ a + b ≤ 1 ∧ ∀ lo up, squareField lo up x = lo.jet a b) ∨
      (sqCells.at x = true ∧ 1 ≤ a + b ∧ ∀ lo up, squareField lo up x = up.jet a b)) := by
  rcases x with x | x | x | x
  · cases x
    · exact ⟨1 / 2, 0, by norm_num, by norm_num, by norm_num, by norm_num, Or.inl ⟨rfl, by norm_num, fun _ _ => rfl⟩⟩
    · exact ⟨1 / 2, 1 / 2, by norm_num, by norm_num, by norm_num, by norm_num,
        Or.inl ⟨rfl, by norm_num, fun _ _ => rfl⟩⟩
    · exact ⟨0, 1 / 2, by norm_num, by norm_num, by norm_num, by norm_num, Or.inl ⟨rfl, by norm_num, fun _ _ => rfl⟩⟩
    · exact ⟨1 / 2, 1 / 2, by norm_num, by norm_num, by norm_num, by norm_num,
        Or.inr ⟨rfl, by norm_num, fun _ _ => rfl⟩⟩
    · exact ⟨1, 1 / 2, by norm_num, by norm_num, by norm_num, by norm_num, Or.inr ⟨rfl, by norm_num, fun _ _ => rfl⟩⟩
    · exact ⟨1 / 2, 1, by norm_num, by norm_num, by norm_num, by norm_num, Or.inr ⟨rfl, by norm_num, fun _ _ => rfl⟩⟩
  · cases x
    · exact ⟨0, 1, by norm_num, by norm_num, by norm_num, by norm_num, Or.inl ⟨rfl, by norm_num, fun _ _ => rfl⟩⟩
    · exact ⟨1 / 2, 1 / 2, by norm_num, by norm_num, by norm_num, by norm_num,
        Or.inl ⟨rfl, by norm_num, fun _ _ => rfl⟩⟩
    · exact ⟨1, 0, by norm_num, by norm_num, by norm_num, by norm_num, Or.inl ⟨rfl, by norm_num, fun _ _ => rfl⟩⟩
  · cases x
    · exact ⟨0, 1, by norm_num, by norm_num, by norm_num, by norm_num, Or.inr ⟨rfl, by norm_num, fun _ _ => rfl⟩⟩
    · exact ⟨1 / 2, 1 / 2, by norm_num, by norm_num, by norm_num, by norm_num,
        Or.inr ⟨rfl, by norm_num, fun _ _ => rfl⟩⟩
    · exact ⟨1, 0, by norm_num, by norm_num, by norm_num, by norm_num, Or.inr ⟨rfl, by norm_num, fun _ _ => rfl⟩⟩
  · cases x
    · exact ⟨0, 0, by norm_num, by norm_num, by norm_num, by norm_num, Or.inl ⟨rfl, by norm_num, fun _ _ => rfl⟩⟩
    · exact ⟨1 / 2, 0, by norm_num, by norm_num, by norm_num, by norm_num, Or.inl ⟨rfl, by norm_num, fun _ _ => rfl⟩⟩
    · exact ⟨1, 0, by norm_num, by norm_num, by norm_num, by norm_num, Or.inl ⟨rfl, by norm_num, fun _ _ => rfl⟩⟩
    · exact ⟨0, 0, by norm_num, by norm_num, by norm_num, by norm_num, Or.inl ⟨rfl, by norm_num, fun _ _ => rfl⟩⟩
    · exact ⟨0, 1 / 2, by norm_num, by norm_num, by norm_num, by norm_num, Or.inl ⟨rfl, by norm_num, fun _ _ => rfl⟩⟩
    · exact ⟨0, 1, by norm_num, by norm_num, by norm_num, by norm_num, Or.inl ⟨rfl, by norm_num, fun _ _ => rfl⟩⟩
    · exact ⟨1, 0, by norm_num, by norm_num, by norm_num, by norm_num, Or.inr ⟨rfl, by norm_num, fun _ _ => rfl⟩⟩
    · exact ⟨1, 1 / 2, by norm_num, by norm_num, by norm_num, by norm_num, Or.inr ⟨rfl, by norm_num, fun _ _ => rfl⟩⟩
    · exact ⟨1, 1, by norm_num, by norm_num, by norm_num, by norm_num, Or.inr ⟨rfl, by norm_num, fun _ _ => rfl⟩⟩
    · exact ⟨0, 1, by norm_num, by norm_num, by norm_num, by norm_num, Or.inr ⟨rfl, by norm_num, fun _ _ => rfl⟩⟩
    · exact ⟨1 / 2, 1, by norm_num, by norm_num, by norm_num, by norm_num, Or.inr ⟨rfl, by norm_num, fun _ _ => rfl⟩⟩
    · exact ⟨1, 1, by norm_num, by norm_num, by norm_num, by norm_num, Or.inr ⟨rfl, by norm_num, fun _ _ => rfl⟩⟩

theorem sq_field (q : Bool → Fin 3 → ℝ) : sqSpace.field q =
    squareField ⟨q false 0, q false 1 - q false 0, q false 2 - q false 0, 0, 0, 0⟩
      ⟨q true 0 - q true 1 + q true 2, q true 1 - q true 2, q true 1 - q true 0, 0, 0, 0⟩ := by
  funext x
  obtain ⟨a, b, _, _, _, _, ⟨hk, _, h⟩ | ⟨hk, _, h⟩⟩ := sq_point x
  all_goals
    apply Jet.ext
    · simp only [Space.field, hk, h, Fin.sum_univ_three, loB, upB, Quad.jet]; ring
    · funext j
      simp only [Space.field, hk, h, Fin.sum_univ_three, loB, upB, Quad.jet]
      fin_cases j <;> simp <;> ring

theorem sq_linear : sqSpace.Linear where
  nonneg := by
    intro x i
    obtain ⟨a, b, ha, hb, ha1, hb1, ⟨hk, hs, h⟩ | ⟨hk, hs, h⟩⟩ := sq_point x
    · simp only [h]
      fin_cases i <;> simp only [loB, Quad.jet] <;> linarith
    · simp only [h]
      fin_cases i <;> simp only [upB, Quad.jet] <;> linarith
  one := by
    intro x
    obtain ⟨a, b, ha, hb, ha1, hb1, ⟨hk, hs, h⟩ | ⟨hk, hs, h⟩⟩ := sq_point x
    · simp only [h, Fin.sum_univ_three, loB, Quad.jet]; ring
    · simp only [h, Fin.sum_univ_three, upB, Quad.jet]; ring
  flat := by
    intro x j
    obtain ⟨a, b, ha, hb, ha1, hb1, ⟨hk, hs, h⟩ | ⟨hk, hs, h⟩⟩ := sq_point x
    · simp only [h, Fin.sum_univ_three, loB, Quad.jet]; fin_cases j <;> simp
    · simp only [h, Fin.sum_univ_three, upB, Quad.jet]; fin_cases j <;> simp

/-- Flow with velocity one to the right. -/
noncomputable def sqU : Vc square := fun i => cst square (if i = 0 then 1 else 0)

/-- The flow. -/
noncomputable def sqFlow : Tracer2.Flow square where
  uv := some sqU
  elev := cst square 0
  factor := cst square 1
  lfFactor := 1

/-- Tracer one at the left side. -/
noncomputable def sqBc : ℕ → Option (Tracer2.BFuncs square) := fun k =>
  if k = 2 then some { value := some fun _ => Jet.const 1 } else none

/-- Weights: a third of the area is shared by the points of each side, according to their weights in the integral over the
side. -/
noncomputable def sqW : Weights square where
  a := fun _ => 0
  p := fun s => sqWS s / (6 * Real.sqrt 2)
  q := fun s => sqWS s / (6 * Real.sqrt 2)
  b := fun b => sqWB b / 6

/-- Vertices of the nodes. -/
def sqVert : Bool → Fin 3 → Fin 4
  | false, 0 => 0
  | false, 1 => 1
  | false, 2 => 3
  | true, 0 => 1
  | true, 1 => 2
  | true, 2 => 3

/-- The limiter on the square: nodes with their vertices, areas and boundary sides. -/
noncomputable def sqL : Limiter.Mesh Bool (Fin 4) (Fin 3) where
  cells := [false, true]
  vert := sqVert
  mass := fun _ _ => 1 / 6
  facets := [(false, [0, 1]), (false, [0, 2]), (true, [0, 1]), (true, [1, 2])]

theorem sq_corrected : Tracer2.corrected sqFlow sqU = sqU := by
  funext i x
  apply Jet.ext
  · simp [Tracer2.corrected, sqFlow]
  · funext j; simp [Tracer2.corrected, sqFlow, sqU]

theorem sq_out (s : square.S) : outP sqU s = 1 / Real.sqrt 2 ∧ outM sqU s = -(1 / Real.sqrt 2) := by
  have h1 : ∀ i, square.np s i = 1 / Real.sqrt 2 := fun _ => rfl
  have h2 : ∀ i, square.nm s i = -(1 / Real.sqrt 2) := fun _ => rfl
  simp only [outP, outM, Fin.sum_univ_two, h1, h2, sqU, cst_apply, Jet.const_v]
  norm_num

theorem sq_normal (b : SqB) : normalAt sqU (b : square.B) = sqNx b := by
  have h : ∀ i, square.nb b i = ![sqNx b, sqNy b] i := fun _ => rfl
  simp only [normalAt, Fin.sum_univ_two, h, sqU, cst_apply, Jet.const_v]
  norm_num

theorem sq_splits (k : Bool) (q : Bool → Fin 3 → ℝ) : Splits sqCells k sqW (sqSpace.field q) := by
  have h2 : Real.sqrt 2 ≠ 0 := by positivity
  rw [sq_field]
  unfold Splits cellInt
  set lo : Quad := ⟨q false 0, q false 1 - q false 0, q false 2 - q false 0, 0, 0, 0⟩ with hlo
  set up : Quad := ⟨q true 0 - q true 1 + q true 2, q true 1 - q true 2, q true 1 - q true 0, 0, 0, 0⟩ with hup
  have e1 := sum_sqC fun x => (1 / 6 : ℝ) * ((squareField lo up (.cell x : Pt square)).v * on sqCells k (.cell x))
  have e2 := sum_sqC fun x => (0 : ℝ) * ((squareField lo up (.cell x : Pt square)).v * on sqCells k (.cell x))
  have e3 := sum_sqS fun s => sqWS s / (6 * Real.sqrt 2) * ((squareField lo up (.plus s : Pt square)).v * on sqCells k (.plus s)) +
    sqWS s / (6 * Real.sqrt 2) * ((squareField lo up (.minus s : Pt square)).v * on sqCells k (.minus s))
  have e4 := sum_sqB fun b => sqWB b / 6 * ((squareField lo up (.bnd b : Pt square)).v * on sqCells k (.bnd b))
  refine e1.trans ?_
  refine Eq.trans ?_ (congrArg₂ (· + ·) (congrArg₂ (· + ·) e2 e3) e4).symm
  cases k
  · simp only [on, Cells.at, sqOfC, sqOfB, squareField, Quad.jet, sqWS, sqWB, hlo, hup, if_true, Bool.true_eq_false,
      if_false]
    field_simp
    ring
  · simp only [on, Cells.at, sqOfC, sqOfB, squareField, Quad.jet, sqWS, sqWB, hlo, hup, if_true,
      Bool.false_eq_true, if_false]
    field_simp
    ring

theorem sq_limit (k : Bool) : Limit sqCells k sqW Tracer2.exTerm sqFlow sqU (1 / 10) where
  cell := by
    intro x _
    have : div sqU (.cell x) = 0 := by simp [div, sqU]
    rw [this]; simp [sqW]
  plus := by
    intro s _
    have hs : 0 < Real.sqrt 2 := by positivity
    obtain ⟨h1, h2⟩ := sq_out s
    have hw := square.wS_nonneg s
    have h3 : (0 : ℝ) ≤ 1 / Real.sqrt 2 := by positivity
    have e : |(-(1 / Real.sqrt 2) - 1 / Real.sqrt 2) / 2| = 1 / Real.sqrt 2 := by
      rw [show (-(1 / Real.sqrt 2) - 1 / Real.sqrt 2) / 2 = -(1 / Real.sqrt 2) by ring, abs_neg, abs_of_nonneg h3]
    simp only [lfSpeed, h1, h2, e, max_eq_left h3]
    change 1 / 10 * (square.wS s * (1 / Real.sqrt 2 + if (true : Bool) = true then 1 / Real.sqrt 2 / 2 * 1 else 0)) ≤
      square.wS s / (6 * Real.sqrt 2)
    rw [if_pos rfl, div_eq_mul_inv (square.wS s), mul_inv]
    have : 1 / Real.sqrt 2 = (Real.sqrt 2)⁻¹ := one_div _
    rw [this]
    have h4 : 0 ≤ square.wS s * (Real.sqrt 2)⁻¹ := by positivity
    nlinarith
  minus := by
    intro s _
    have hs : 0 < Real.sqrt 2 := by positivity
    obtain ⟨h1, h2⟩ := sq_out s
    have hw := square.wS_nonneg s
    have h3 : (0 : ℝ) ≤ 1 / Real.sqrt 2 := by positivity
    have e : |(-(1 / Real.sqrt 2) - 1 / Real.sqrt 2) / 2| = 1 / Real.sqrt 2 := by
      rw [show (-(1 / Real.sqrt 2) - 1 / Real.sqrt 2) / 2 = -(1 / Real.sqrt 2) by ring, abs_neg, abs_of_nonneg h3]
    have h5 : max (-(1 / Real.sqrt 2)) 0 = 0 := max_eq_right (by linarith)
    simp only [lfSpeed, h1, h2, e, h5]
    change 1 / 10 * (square.wS s * (0 + if (true : Bool) = true then 1 / Real.sqrt 2 / 2 * 1 else 0)) ≤
      square.wS s / (6 * Real.sqrt 2)
    rw [if_pos rfl, div_eq_mul_inv (square.wS s), mul_inv]
    have : 1 / Real.sqrt 2 = (Real.sqrt 2)⁻¹ := one_div _
    rw [this]
    have h4 : 0 ≤ square.wS s * (Real.sqrt 2)⁻¹ := by positivity
    nlinarith
  bnd := by
    intro b _
    rw [sq_normal b]
    change 1 / 10 * (sqWB b * max (sqNx b) 0) ≤ sqWB b / 6
    cases b <;> norm_num [sqWB, sqNx]

theorem sq_admissible : Admissible sqSpace Tracer2.exTerm sqFlow sqBc sqU sqW (1 / 10) where
  velocity := rfl
  dg := rfl
  step := by norm_num
  lf := by norm_num [sqFlow]
  conditions := by
    intro j f h
    by_cases hj : j = 2
    · rw [sqBc, if_pos hj] at h; cases h; exact ⟨rfl, rfl, rfl⟩
    · rw [sqBc, if_neg hj] at h; cases h
  exact_ := by
    intro k
    rw [sq_corrected, sq_field]
    have : ∀ i, sqU i = squareField ⟨if i = 0 then 1 else 0, 0, 0, 0, 0, 0⟩ ⟨if i = 0 then 1 else 0, 0, 0, 0, 0, 0⟩ :=
      fun i => squareField_cst _
    have h : ∀ lo up : Quad, (lo.d = 0 ∧ lo.e = 0 ∧ lo.f = 0) → (up.d = 0 ∧ up.e = 0 ∧ up.f = 0) →
        DivExact square fun i => sqU i * squareField lo up := by
      intro lo up hl hu
      have e : (fun i => sqU i * squareField lo up) = fun i => squareField
          (Quad.mulLin ⟨if i = 0 then 1 else 0, 0, 0, 0, 0, 0⟩ lo)
          (Quad.mulLin ⟨if i = 0 then 1 else 0, 0, 0, 0, 0, 0⟩ up) := by
        funext i
        rw [this i, squareField_mul _ _ _ _ ⟨rfl, rfl, rfl⟩ ⟨rfl, rfl, rfl⟩ hl hu]
      rw [e]
      exact square_divExact _ _
    exact h _ _ ⟨rfl, rfl, rfl⟩ ⟨rfl, rfl, rfl⟩
  aligned := by
    intro s
    obtain ⟨h1, h2⟩ := sq_out s
    rw [sq_corrected, h1, h2, Aligned]
    have : (0 : ℝ) ≤ 1 / Real.sqrt 2 := by positivity
    nlinarith [mul_nonneg this this]
  splits := sq_splits
  limit := by
    intro k
    rw [sq_corrected]
    exact sq_limit k

theorem sq_fits : Fits sqSpace sqL where
  all := by intro k; change k ∈ [false, true]; cases k <;> simp
  mass := by
    intro k i
    have e := sum_sqC fun x => (1 / 6 : ℝ) * ((squareField (loB i) (upB i) (.cell x : Pt square)).v *
      on sqCells k (.cell x))
    refine Eq.trans ?_ e.symm
    change Bool at k
    cases k <;> fin_cases i <;>
      simp only [on, Cells.at, sqOfC, squareField, Quad.jet, loB, upB, sqL, if_true, Bool.true_eq_false,
        Bool.false_eq_true, if_false] <;> norm_num
  volume := by
    intro k
    have e := sum_sqC fun x => (1 / 6 : ℝ) * ((cst square 1 (.cell x : Pt square)).v * on sqCells k (.cell x))
    refine lt_of_lt_of_eq ?_ e.symm
    change Bool at k
    cases k <;>
      simp only [on, Cells.at, sqOfC, if_true, Bool.true_eq_false, Bool.false_eq_true, if_false] <;> norm_num

/-- The tracer `1 - x`. -/
def sqQ : Bool → Fin 3 → ℝ
  | false, 0 => 1
  | false, 1 => 0
  | false, 2 => 1
  | true, 0 => 0
  | true, 1 => 0
  | true, 2 => 1

/-- The tracer after a step of one tenth: `1 - x` and one tenth. -/
noncomputable def sqQ' : Bool → Fin 3 → ℝ := fun k i => sqQ k i + 1 / 10

theorem sq_q : sqSpace.field sqQ = squareField ⟨1, -1, 0, 0, 0, 0⟩ ⟨1, -1, 0, 0, 0, 0⟩ := by
  rw [sq_field]; norm_num [sqQ]

theorem sq_q' : sqSpace.field sqQ' = squareField ⟨11 / 10, -1, 0, 0, 0, 0⟩ ⟨11 / 10, -1, 0, 0, 0, 0⟩ := by
  rw [sq_field]; norm_num [sqQ', sqQ]

/-- The step: advection of `1 - x` to the right adds the time step everywhere. -/
theorem sq_euler : Euler sqSpace Tracer2.exTerm sqFlow sqBc (1 / 10) sqQ sqQ' := by
  intro phi
  rw [sq_q, sq_q', sq_field phi]
  generalize hl : (⟨phi false 0, phi false 1 - phi false 0, phi false 2 - phi false 0, 0, 0, 0⟩ : Quad) = lo
  generalize hu : (⟨phi true 0 - phi true 1 + phi true 2, phi true 1 - phi true 2, phi true 1 - phi true 0, 0, 0, 0⟩ :
    Quad) = up
  have hl' : lo.d = 0 ∧ lo.e = 0 ∧ lo.f = 0 := by rw [← hl]; exact ⟨rfl, rfl, rfl⟩
  have hu' : up.d = 0 ∧ up.e = 0 ∧ up.f = 0 := by rw [← hu]; exact ⟨rfl, rfl, rfl⟩
  set c : Sc square := squareField ⟨1, -1, 0, 0, 0, 0⟩ ⟨1, -1, 0, 0, 0, 0⟩ with hc
  set p : Sc square := squareField lo up with hp
  have hv : ∀ x, (c x).v = 1 - (squareField ⟨0, 1, 0, 0, 0, 0⟩ ⟨0, 1, 0, 0, 0, 0⟩ x).v := by
    intro x
    obtain ⟨a, b, _, _, _, _, ⟨_, _, h⟩ | ⟨_, _, h⟩⟩ := sq_point x <;>
      simp only [hc, h, Quad.jet] <;> ring
  have hv' : ∀ x, (squareField ⟨11 / 10, -1, 0, 0, 0, 0⟩ ⟨11 / 10, -1, 0, 0, 0, 0⟩ x).v = (c x).v + 1 / 10 := by
    intro x
    obtain ⟨a, b, _, _, _, _, ⟨_, _, h⟩ | ⟨_, _, h⟩⟩ := sq_point x <;>
      simp only [hc, h, Quad.jet] <;> ring
  have hg : ∀ x, (c x).g 0 = -1 := by
    intro x
    obtain ⟨a, b, _, _, _, _, ⟨_, _, h⟩ | ⟨_, _, h⟩⟩ := sq_point x <;>
      simp [hc, h, Quad.jet]
  have hj : ∀ s, (c (.plus s)).v = (c (.minus s)).v := by
    intro s
    cases s <;> simp [hc, squareField, Quad.jet]
  -- the divergence theorem for `c u p`
  have hex : DivExact square fun i => sqU i * (c * p) := by
    have e : c * p = squareField (Quad.mulLin ⟨1, -1, 0, 0, 0, 0⟩ lo) (Quad.mulLin ⟨1, -1, 0, 0, 0, 0⟩ up) :=
      squareField_mul _ _ _ _ ⟨rfl, rfl, rfl⟩ ⟨rfl, rfl, rfl⟩ hl' hu'
    have e' : (fun i => sqU i * (c * p)) = fun i => squareField
        (if i = 0 then Quad.mulLin ⟨1, -1, 0, 0, 0, 0⟩ lo else ⟨0, 0, 0, 0, 0, 0⟩)
        (if i = 0 then Quad.mulLin ⟨1, -1, 0, 0, 0, 0⟩ up else ⟨0, 0, 0, 0, 0, 0⟩) := by
      funext i
      fin_cases i
      · simpa [sqU, cst_one_mul] using e
      · change cst square 0 * (c * p) = squareField ⟨0, 0, 0, 0, 0, 0⟩ ⟨0, 0, 0, 0, 0, 0⟩
        rw [← squareField_cst]
        funext x
        apply Jet.ext
        · simp
        · funext j; simp
    rw [e']
    exact square_divExact _ _
  have hadv : Tracer2.advection Tracer2.exTerm sqFlow sqBc c p = square.dx fun x => (p (.cell x)).v := by
    rw [Tracer2.advection_eq _ _ _ sqU _ _ rfl, sq_corrected]
    have e1 : (square.dx fun x => div (fun i => sqU i * (c * p)) (.cell x)) =
        (square.dx fun x => div (fun i => sqU i * p) (.cell x) * (c (.cell x)).v) -
          square.dx fun x => (p (.cell x)).v := by
      rw [sub_eq_add_neg, ← dx_neg, ← dx_add]
      refine dx_congr fun x => ?_
      simp only [div, Fin.sum_univ_two, Pi.mul_apply, Jet.mul_g, Jet.mul_v, sqU, hg]
      simp
      ring
    have e2 : square.dS (fun s => jumpV (fun i => sqU i * (c * p)) s) =
        square.dS (Tracer2.advFacet Tracer2.exTerm sqU c p) := by
      refine dS_congr fun s => ?_
      simp only [Tracer2.advFacet, jumpV, Fin.sum_univ_two, Pi.mul_apply, Jet.mul_v, hj]
      ring
    have e3 : (square.dS fun s => (1 / 2) * |Tracer2.unAv sqU s| * sqFlow.lfFactor * (jump p s * jump c s)) = 0 := by
      refine (dS_congr fun s => ?_).trans dS_zero
      simp [jump, hj]
    have e4 : ∀ b, square.wB b * (Tracer2.advBndFlux Tracer2.exTerm sqFlow sqU sqBc c (square.marker b) b *
        (p (.bnd b)).v) = square.wB b * normalAt (fun i => sqU i * (c * p)) b := by
      intro b
      rw [bndFlux_eq _ _ _ _ _ _ _ (fun f h => (sq_admissible.conditions _ f h))]
      have e5 : passes Tracer2.exTerm sqU (sqBc (square.marker b)) c b * normalAt sqU b =
          (c (.bnd b)).v * normalAt sqU b := by
        by_cases hm : square.marker b = 2
        · have h1 : (c (.bnd b)).v = 1 := by
            change sqMarker b = 2 at hm
            cases b <;> first
              | exact absurd hm (by decide)
              | simp [hc, squareField, Quad.jet]
          rw [sqBc, if_pos hm]
          simp only [passes, Option.bind_some, h1, Jet.const_v]
          ring
        · rw [sqBc, if_neg hm]
          rfl
      rw [e5]
      simp only [normalAt, Fin.sum_univ_two, Pi.mul_apply, Jet.mul_v]
      ring
    rw [Finset.sum_congr rfl fun b _ => e4 b, show Tracer2.exTerm.dg = true from rfl,
      show Tracer2.exTerm.lf = true from rfl, if_pos rfl, if_pos rfl, e3, ← e2]
    have := hex
    unfold DivExact at this
    linarith
  rw [hadv, ← dx_smul, ← dx_add]
  refine dx_congr fun x => ?_
  rw [hv']
  ring

/-- C125 (violated): a tracer between zero and one, with inflow of tracer one, and a time step within the limits. After the
step with the limiter the tracer is above one at the inflow boundary: the limiter takes the mean over the boundary facet,
which is not limited, as an upper bound. -/
theorem C125_inflow_violated :
    (∀ k i, 0 ≤ sqQ k i ∧ sqQ k i ≤ 1) ∧
    Admissible sqSpace Tracer2.exTerm sqFlow sqBc sqU sqW (1 / 10) ∧
    ∃ q', Step sqSpace Tracer2.exTerm sqFlow sqBc (1 / 10) (limiterOn true 1) sqL [0, 1, 2] sqQ q' ∧ 1 < q' false 0 := by
  refine ⟨?_, sq_admissible, Limiter.apply true sqL sqL [0, 1, 2] sqQ', ⟨sqQ', sq_euler, rfl⟩, ?_⟩
  · intro k i
    cases k <;> fin_cases i <;> norm_num [sqQ]
  · rw [Limiter.C49_unchanged sqL sqL true (Or.inl rfl) [0, 1, 2] sqQ' false]
    · norm_num [sqQ', sqQ]
    · intro i
      fin_cases i
      · exact ⟨_, _, Or.inr ⟨(false, [0, 2]), by simp [sqL], ⟨0, by simp, rfl⟩, rfl⟩,
          Or.inr ⟨(false, [0, 2]), by simp [sqL], ⟨0, by simp, rfl⟩, rfl⟩, by norm_num [sqQ', sqQ], by norm_num [sqQ', sqQ]⟩
      · exact ⟨_, _, Or.inr ⟨(true, [0, 1]), by simp [sqL], ⟨0, by simp, rfl⟩, rfl⟩,
          Or.inr ⟨(true, [0, 1]), by simp [sqL], ⟨0, by simp, rfl⟩, rfl⟩, by norm_num [sqQ', sqQ], by norm_num [sqQ', sqQ]⟩
      · exact ⟨_, _, Or.inr ⟨(false, [0, 2]), by simp [sqL], ⟨2, by simp, rfl⟩, rfl⟩,
          Or.inr ⟨(false, [0, 2]), by simp [sqL], ⟨2, by simp, rfl⟩, rfl⟩, by norm_num [sqQ', sqQ], by norm_num [sqQ', sqQ]⟩

/-- The hypotheses of `C125_mean` hold for this step. -/
example (k : Bool) : cellInt sqCells k (sqSpace.field sqQ') ≤ 1 * cellInt sqCells k (cst square 1) := by
  obtain ⟨h1, h2⟩ := beyond_of_nodes sqSpace sq_linear sqBc sqQ 0 1
    (fun k i => by change Bool at k; cases k <;> fin_cases i <;> norm_num [sqQ])
    (fun b f v h hv => by
      by_cases hj : square.marker b = 2
      · rw [sqBc, if_pos hj] at h; cases h; cases hv; norm_num
      · rw [sqBc, if_neg hj] at h; cases h) k
  exact (C125_mean sqSpace sq_linear Tracer2.exTerm sqFlow sqBc sqU sqW (1 / 10) 0 1 sqQ sqQ' k square_flat sq_admissible
    sq_euler h1 h2).2

theorem sq_nodes (k : Bool) (i : Fin 3) : 0 ≤ sqQ k i ∧ sqQ k i ≤ 1 := by
  cases k <;> fin_cases i <;> norm_num [sqQ]

theorem sq_values (A B : ℝ) (hA : A ≤ 1) (hB : 1 ≤ B) (b : square.B) (f : Tracer2.BFuncs square) (v : square.B → Jet 2)
    (h : sqBc (square.marker b) = some f) (hv : f.value = some v) : A ≤ (v b).v ∧ (v b).v ≤ B := by
  by_cases hj : square.marker b = 2
  · rw [sqBc, if_pos hj] at h; cases h; cases hv; exact ⟨hA, hB⟩
  · rw [sqBc, if_neg hj] at h; cases h

/-- The limiter without boundary facets. -/
noncomputable def sqL0 : Limiter.Mesh Bool (Fin 4) (Fin 3) := { sqL with facets := [] }

theorem sq_fits0 : Fits sqSpace sqL0 := ⟨sq_fits.all, sq_fits.mass, sq_fits.volume⟩

theorem sq_order (i : Fin 3) : i ∈ [0, 1, 2] := by fin_cases i <;> simp

/-- The hypotheses of `C125_step` hold for this step, with a limiter that takes no boundary facets. -/
example (k : Bool) (i : Fin 3) : Limiter.apply true sqL0 sqL0 [0, 1, 2] sqQ' k i ≤ 1 :=
  (C125_step sqSpace sq_linear Tracer2.exTerm sqFlow sqBc sqU sqW (1 / 10) 0 1 sqQ _ sqL0 sq_fits0 [0, 1, 2] sq_order
    square_flat sq_admissible ⟨sqQ', sq_euler, rfl⟩ (by norm_num) (by norm_num) rfl
    (sq_values 0 1 (by norm_num) (by norm_num)) sq_nodes k i).2

/-- Those of `C125_step_boundary` with the limiter as it is and the upper bound 11/10. -/
example (k : Bool) (i : Fin 3) : Limiter.apply true sqL sqL [0, 1, 2] sqQ' k i ≤ 11 / 10 := by
  refine (C125_step_boundary sqSpace sq_linear Tracer2.exTerm sqFlow sqBc sqU sqW (1 / 10) 0 (11 / 10) sqQ sqQ' sqL sq_fits
    [0, 1, 2] sq_order square_flat sq_admissible sq_euler (by norm_num) (by norm_num) ?_
    (sq_values 0 _ (by norm_num) (by norm_num)) (fun k i => ⟨(sq_nodes k i).1, (sq_nodes k i).2.trans (by norm_num)⟩) k i).2
  intro f hf
  have : f = (false, [0, 1]) ∨ f = (false, [0, 2]) ∨ f = (true, [0, 1]) ∨ f = (true, [1, 2]) := by
    simpa [sqL] using hf
  rcases this with h | h | h | h <;> subst h <;> norm_num [sqQ', sqQ]

/-- Those of `C125_run` for a constant tracer and steps of length zero. -/
example (n : ℕ) (k : Bool) (i : Fin 3) : (fun (_ : ℕ) (_ : Bool) (_ : Fin 3) => (1 : ℝ)) n k i ≤ 1 := by
  refine (C125_run sqSpace sq_linear Tracer2.exTerm (fun _ => sqFlow) (fun _ => sqBc) (fun _ => sqU) sqW (fun _ => 0) 1 1
    (fun _ _ _ => 1) sqL0 sq_fits0 [0, 1, 2] sq_order square_flat (fun _ => ?_) (fun _ => ?_) (by norm_num) (by norm_num)
    rfl (fun _ => sq_values 1 1 le_rfl le_rfl) (fun _ _ => ⟨le_rfl, le_rfl⟩) n k i).2
  · exact { sq_admissible with
      step := le_rfl
      limit := fun k => by
        have h := sq_admissible.limit k
        have hw : ∀ s, 0 ≤ square.wS s / (6 * Real.sqrt 2) := fun s => div_nonneg (square.wS_nonneg s) (by positivity)
        refine ⟨fun x _ => by simp [sqW], fun s _ => ?_, fun s _ => ?_, fun b _ => ?_⟩
        · rw [zero_mul]; exact hw s
        · rw [zero_mul]; exact hw s
        · rw [zero_mul]; exact div_nonneg (square.wB_nonneg b) (by norm_num) }
  · refine ⟨fun _ _ => 1, fun phi => by simp, ?_⟩
    funext k i
    have h1 : ∀ k, cellInt sqCells k (sqSpace.field fun _ _ => 1) = cellInt sqCells k (cst square 1) := fun k => by
      simp only [cellInt, Space.field, one_mul, sq_linear.one, cst_apply, Jet.const_v]
    have := C125_limited sqSpace sq_linear sqL0 sq_fits0 [0, 1, 2] sq_order (fun _ _ => 1) 1 1 (by norm_num) (by norm_num)
      (fun k => by rw [one_mul]; exact ⟨(h1 k).ge, (h1 k).le⟩) (by simp [sqL0]) k i
    exact le_antisymm this.1 this.2

end Verif.Bound2
