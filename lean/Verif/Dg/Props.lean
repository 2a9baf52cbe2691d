import Verif.Dg.Lemmas
import Verif.Forcing.Model
import Mathlib.Tactic.FinCases
import Mathlib.Tactic.NormNum

/-!
A mesh for the examples: the unit square split along the diagonal from (0,1) to (1,0) into two triangles,
with the rule of the edge midpoints on the triangles and Simpson's rule on the edges.  The divergence
theorem holds in it for all vector fields that are quadratic on each triangle, continuous or not.
-/

namespace Verif.Dg

/-- A quadratic polynomial `a + b x + c y + d x² + e x y + f y²`. -/
structure Quad where
  a : ℝ
  b : ℝ
  c : ℝ
  d : ℝ
  e : ℝ
  f : ℝ

/-- Its value and gradient. -/
def Quad.jet (q : Quad) (x y : ℝ) : Jet 2 :=
  ⟨q.a + q.b * x + q.c * y + q.d * x ^ 2 + q.e * (x * y) + q.f * y ^ 2,
    ![q.b + 2 * q.d * x + q.e * y, q.c + q.e * x + 2 * q.f * y]⟩

/-- Points of the edge midpoint rule in the lower (`l`) and upper (`u`) triangle. -/
inductive SqC
  | l0 | l1 | l2 | u0 | u1 | u2
deriving DecidableEq

/-- Points of Simpson's rule on the diagonal. -/
inductive SqS
  | s0 | s1 | s2
deriving DecidableEq

/-- Points of Simpson's rule on the sides: bottom, left, right, top. -/
inductive SqB
  | b0 | b1 | b2 | l0 | l1 | l2 | r0 | r1 | r2 | t0 | t1 | t2
deriving DecidableEq

instance : Fintype SqC := ⟨{.l0, .l1, .l2, .u0, .u1, .u2}, by intro x; cases x <;> decide⟩
instance : Fintype SqS := ⟨{.s0, .s1, .s2}, by intro x; cases x <;> decide⟩
instance : Fintype SqB :=
  ⟨{.b0, .b1, .b2, .l0, .l1, .l2, .r0, .r1, .r2, .t0, .t1, .t2}, by intro x; cases x <;> decide⟩

/-- Weights of the diagonal: Simpson times the length. -/
noncomputable def sqWS : SqS → ℝ
  | .s0 => Real.sqrt 2 / 6
  | .s1 => 4 * Real.sqrt 2 / 6
  | .s2 => Real.sqrt 2 / 6

/-- Weights of the sides. -/
noncomputable def sqWB : SqB → ℝ
  | .b1 | .l1 | .r1 | .t1 => 4 / 6
  | _ => 1 / 6

/-- Normals of the sides, first component. -/
def sqNx : SqB → ℝ
  | .l0 | .l1 | .l2 => -1
  | .r0 | .r1 | .r2 => 1
  | _ => 0

/-- Normals of the sides, second component. -/
def sqNy : SqB → ℝ
  | .b0 | .b1 | .b2 => -1
  | .t0 | .t1 | .t2 => 1
  | _ => 0

/-- Boundary ids. -/
def sqMarker : SqB → ℕ
  | .b0 | .b1 | .b2 => 1
  | .l0 | .l1 | .l2 => 2
  | .r0 | .r1 | .r2 => 3
  | .t0 | .t1 | .t2 => 4

/-- The square. -/
noncomputable def square : Mesh 2 where
  C := SqC
  S := SqS
  B := SqB
  wC := fun _ => 1 / 6
  wS := sqWS
  wB := sqWB
  np := fun _ _ => 1 / Real.sqrt 2
  nm := fun _ _ => -(1 / Real.sqrt 2)
  nb := fun b => ![sqNx b, sqNy b]
  marker := sqMarker
  markers := [1, 2, 3, 4]
  volP := fun _ => 1 / 2
  volM := fun _ => 1 / 2
  volB := fun _ => 1 / 2
  areaS := fun _ => Real.sqrt 2
  areaB := fun _ => 1
  wC_nonneg := fun _ => by norm_num
  wS_nonneg := fun s => by cases s <;> simp only [sqWS] <;> positivity
  wB_nonneg := fun s => by cases s <;> simp only [sqWB] <;> norm_num
  markers_nodup := by decide
  marker_mem := by intro b; cases b <;> decide

/-- The expression that is `lo` on the lower and `up` on the upper triangle. -/
noncomputable def squareField (lo up : Quad) : Sc square
  | .cell SqC.l0 => lo.jet (1 / 2) 0
  | .cell SqC.l1 => lo.jet (1 / 2) (1 / 2)
  | .cell SqC.l2 => lo.jet 0 (1 / 2)
  | .cell SqC.u0 => up.jet (1 / 2) (1 / 2)
  | .cell SqC.u1 => up.jet 1 (1 / 2)
  | .cell SqC.u2 => up.jet (1 / 2) 1
  | .plus SqS.s0 => lo.jet 0 1
  | .plus SqS.s1 => lo.jet (1 / 2) (1 / 2)
  | .plus SqS.s2 => lo.jet 1 0
  | .minus SqS.s0 => up.jet 0 1
  | .minus SqS.s1 => up.jet (1 / 2) (1 / 2)
  | .minus SqS.s2 => up.jet 1 0
  | .bnd SqB.b0 => lo.jet 0 0
  | .bnd SqB.b1 => lo.jet (1 / 2) 0
  | .bnd SqB.b2 => lo.jet 1 0
  | .bnd SqB.l0 => lo.jet 0 0
  | .bnd SqB.l1 => lo.jet 0 (1 / 2)
  | .bnd SqB.l2 => lo.jet 0 1
  | .bnd SqB.r0 => up.jet 1 0
  | .bnd SqB.r1 => up.jet 1 (1 / 2)
  | .bnd SqB.r2 => up.jet 1 1
  | .bnd SqB.t0 => up.jet 0 1
  | .bnd SqB.t1 => up.jet (1 / 2) 1
  | .bnd SqB.t2 => up.jet 1 1

theorem square_flat : square.Flat := fun _ _ => rfl

theorem square_unit : square.UnitNormals := by
  have h : (Real.sqrt 2) ^ 2 = 2 := Real.sq_sqrt (by norm_num)
  refine ⟨fun s => ?_, fun s => ?_, fun b => ?_⟩
  · simp [square, h]
  · simp [square, h]
  · rw [Fin.sum_univ_two]
    change (sqNx b) ^ 2 + (sqNy b) ^ 2 = 1
    cases b <;> simp [sqNx, sqNy]

theorem sum_sqC (f : SqC → ℝ) :
    ∑ c, f c = f .l0 + f .l1 + f .l2 + f .u0 + f .u1 + f .u2 := by
  have : (Finset.univ : Finset SqC) = {.l0, .l1, .l2, .u0, .u1, .u2} := rfl
  rw [this]
  simp [add_assoc]

theorem sum_sqS (f : SqS → ℝ) : ∑ c, f c = f .s0 + f .s1 + f .s2 := by
  have : (Finset.univ : Finset SqS) = {.s0, .s1, .s2} := rfl
  rw [this]
  simp [add_assoc]

theorem sum_sqB (f : SqB → ℝ) :
    ∑ c, f c = f .b0 + f .b1 + f .b2 + f .l0 + f .l1 + f .l2 + f .r0 + f .r1 + f .r2 + f .t0 + f .t1 +
      f .t2 := by
  have : (Finset.univ : Finset SqB) =
      {.b0, .b1, .b2, .l0, .l1, .l2, .r0, .r1, .r2, .t0, .t1, .t2} := rfl
  rw [this]
  simp [add_assoc]

/-- The quadrature of `square` is exact for quadratic vector fields. -/
theorem square_divExact (lo up : Fin 2 → Quad) :
    DivExact square (fun i => squareField (lo i) (up i)) := by
  have h : Real.sqrt 2 ≠ 0 := by positivity
  have e1 := sum_sqC fun c => (1 / 6 : ℝ) * div (fun i => squareField (lo i) (up i)) (.cell c)
  have e2 := sum_sqS fun s => sqWS s * jumpV (fun i => squareField (lo i) (up i)) s
  have e3 := sum_sqB fun b => sqWB b * normalAt (fun i => squareField (lo i) (up i)) b
  change (∑ c : SqC, (1 / 6 : ℝ) * div (fun i => squareField (lo i) (up i)) (.cell c)) =
    (∑ s : SqS, sqWS s * jumpV (fun i => squareField (lo i) (up i)) s) +
      ∑ b : SqB, sqWB b * normalAt (fun i => squareField (lo i) (up i)) b
  rw [e1, e2, e3]
  simp only [div, jumpV, normalAt, Fin.sum_univ_two, squareField, Quad.jet, sqWS, sqWB, square, sqNx, sqNy,
    Matrix.cons_val_zero, Matrix.cons_val_one]
  field_simp
  ring

/-- Product of two polynomials of degree one. -/
noncomputable def Quad.mulLin (p q : Quad) : Quad :=
  ⟨p.a * q.a, p.a * q.b + p.b * q.a, p.a * q.c + p.c * q.a, p.b * q.b, p.b * q.c + p.c * q.b, p.c * q.c⟩

theorem squareField_mul (p q r s : Quad) (hp : p.d = 0 ∧ p.e = 0 ∧ p.f = 0) (hq : q.d = 0 ∧ q.e = 0 ∧ q.f = 0)
    (hr : r.d = 0 ∧ r.e = 0 ∧ r.f = 0) (hs : s.d = 0 ∧ s.e = 0 ∧ s.f = 0) :
    squareField p q * squareField r s = squareField (Quad.mulLin p r) (Quad.mulLin q s) := by
  obtain ⟨hp1, hp2, hp3⟩ := hp
  obtain ⟨hq1, hq2, hq3⟩ := hq
  obtain ⟨hr1, hr2, hr3⟩ := hr
  obtain ⟨hs1, hs2, hs3⟩ := hs
  have key : ∀ (a b : Quad), a.d = 0 → a.e = 0 → a.f = 0 → b.d = 0 → b.e = 0 → b.f = 0 → ∀ x y,
      a.jet x y * b.jet x y = (Quad.mulLin a b).jet x y := by
    intro a b h1 h2 h3 h4 h5 h6 x y
    apply Jet.ext
    · simp [Quad.jet, Quad.mulLin, h1, h2, h3, h4, h5, h6]; ring
    · funext i
      fin_cases i <;> simp [Quad.jet, Quad.mulLin, h1, h2, h3, h4, h5, h6] <;> ring
  funext x
  cases x with
  | cell c => cases c <;> simp only [Pi.mul_apply, squareField] <;> apply key <;> assumption
  | plus c => cases c <;> simp only [Pi.mul_apply, squareField] <;> apply key <;> assumption
  | minus c => cases c <;> simp only [Pi.mul_apply, squareField] <;> apply key <;> assumption
  | bnd c => cases c <;> simp only [Pi.mul_apply, squareField] <;> apply key <;> assumption

theorem cst_one_mul {d : ℕ} {m : Mesh d} (f : Sc m) : cst m 1 * f = f := by
  funext x
  apply Jet.ext
  · simp
  · funext i; simp

theorem squareField_cst (x : ℝ) :
    cst square x = squareField ⟨x, 0, 0, 0, 0, 0⟩ ⟨x, 0, 0, 0, 0, 0⟩ := by
  have key : ∀ y z, (Jet.const x : Jet 2) = (⟨x, 0, 0, 0, 0, 0⟩ : Quad).jet y z := by
    intro y z
    apply Jet.ext
    · simp [Quad.jet]
    · funext i
      fin_cases i <;> simp [Quad.jet]
  funext p
  cases p with
  | cell c => cases c <;> exact key _ _
  | plus c => cases c <;> exact key _ _
  | minus c => cases c <;> exact key _ _
  | bnd c => cases c <;> exact key _ _

theorem square_divExact_cst (x : Fin 2 → ℝ) : DivExact square fun i => cst square (x i) := by
  simp only [squareField_cst]
  exact square_divExact _ _

/-! ### Water depth -/

/-- C37: the depth in the weak forms is the depth of `DepthExpression` at every point, and its gradient is that of the chain rule:
with wetting and drying, `(1 + h / sqrt(h² + α²)) / 2` times the gradient of `h` plus `α / (2 sqrt(h² + α²))` times that of `α`. -/
theorem C37_weak_form {d : ℕ} {m : Mesh d} (D : Depth m) (x : Pt m) (eta : Jet d) :
    (D.total x eta).v = Forcing.Depth.total ⟨(D.bathymetry x).v, D.nonlinear, D.wetdry, (D.alpha x).v⟩ eta.v ∧
    (D.displacement x eta).v = Forcing.Depth.displacement ⟨(D.bathymetry x).v, D.nonlinear, D.wetdry, (D.alpha x).v⟩ eta.v ∧
    (D.nonlinear = false → ∀ i, (D.total x eta).g i = (D.bathymetry x).g i) ∧
    (D.nonlinear = true → D.wetdry = false → ∀ i, (D.total x eta).g i = (D.bathymetry x).g i + eta.g i) ∧
    (D.nonlinear = true → D.wetdry = true → ∀ i, (D.total x eta).g i =
      (1 + ((D.bathymetry x).v + eta.v) / Real.sqrt (((D.bathymetry x).v + eta.v) ^ 2 + (D.alpha x).v ^ 2)) / 2 *
          ((D.bathymetry x).g i + eta.g i) +
        (D.alpha x).v / (2 * Real.sqrt (((D.bathymetry x).v + eta.v) ^ 2 + (D.alpha x).v ^ 2)) * (D.alpha x).g i) := by
  have e2 : ∀ a : ℝ, a * a = a ^ 2 := fun a => by ring
  refine ⟨?_, ?_, ?_, ?_, ?_⟩
  · unfold Depth.total Depth.displacement Forcing.Depth.total Forcing.Depth.displacement
    by_cases h1 : D.nonlinear <;> by_cases h2 : D.wetdry <;> simp [h1, h2, Jet.sqrt, e2] <;> norm_num
  · unfold Depth.displacement Forcing.Depth.displacement
    by_cases h2 : D.wetdry <;> simp [h2, Jet.sqrt, e2] <;> norm_num
  · intro h i
    simp [Depth.total, h]
  · intro h h2 i
    simp [Depth.total, Depth.displacement, h, h2]
  · intro h h2 i
    simp [Depth.total, Depth.displacement, h, h2, Jet.sqrt, e2]
    by_cases hr : Real.sqrt (((D.bathymetry x).v + eta.v) ^ 2 + (D.alpha x).v ^ 2) = 0
    · rw [hr]; simp; ring
    · field_simp
      ring

end Verif.Dg
