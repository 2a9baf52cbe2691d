import Verif.Tracer2.Props4

/-!
C75, piecewise linear tracers: the trace bound holds with the constant 3 on triangles, so that the default penalty
factor suffices.
-/

namespace Verif.Tracer2

open Verif.Dg

variable {m : Mesh 2}

/-- The cells of a mesh: each quadrature point belongs to one, both sides of a facet belong to one, the weights in a
cell add up to its volume, and the weights of its interior facets over their areas add up to at most `facets` (each
facet contributes one). -/
structure Cells (m : Mesh 2) (facets : ℝ) where
  K : Type
  [fin : Fintype K]
  [dec : DecidableEq K]
  ofC : m.C → K
  ofP : m.S → K
  ofM : m.S → K
  vol : K → ℝ
  vol_nonneg : ∀ k, 0 ≤ vol k
  sum_weights : ∀ k, (∑ x, if ofC x = k then m.wC x else 0) = vol k
  volP_eq : ∀ s, m.volP s = vol (ofP s)
  volM_eq : ∀ s, m.volM s = vol (ofM s)
  area_pos : ∀ s, 0 < m.areaS s
  facet_count : ∀ k, (∑ s, if ofP s = k then m.wS s / m.areaS s else 0) +
    (∑ s, if ofM s = k then m.wS s / m.areaS s else 0) ≤ facets

attribute [instance] Cells.fin Cells.dec

/-- The gradient of `c` and the value of `mu` are constant on each cell, including its facets. -/
structure Linear {facets : ℝ} (D : Cells m facets) (mu c : Sc m) where
  grad : D.K → Fin 2 → ℝ
  diff : D.K → ℝ
  diff_nonneg : ∀ k, 0 ≤ diff k
  gC : ∀ x i, (c (.cell x)).g i = grad (D.ofC x) i
  gP : ∀ s i, (c (.plus s)).g i = grad (D.ofP s) i
  gM : ∀ s i, (c (.minus s)).g i = grad (D.ofM s) i
  mC : ∀ x, (mu (.cell x)).v = diff (D.ofC x)
  mP : ∀ s, (mu (.plus s)).v = diff (D.ofP s)
  mM : ∀ s, (mu (.minus s)).v = diff (D.ofM s)

theorem sum_fiber {A K : Type} [Fintype A] [Fintype K] [DecidableEq K] (f : A → K) (g : K → ℝ) (w : A → ℝ) :
    (∑ a, w a * g (f a)) = ∑ k, g k * ∑ a, if f a = k then w a else 0 := by
  simp only [Finset.mul_sum]
  rw [Finset.sum_comm]
  refine Finset.sum_congr rfl fun a _ => ?_
  simp only [mul_ite, mul_zero, Finset.sum_ite_eq, Finset.mem_univ, if_true]
  ring

theorem cauchy2 (g n : Fin 2 → ℝ) (hn : ∑ i, n i ^ 2 = 1) : (∑ i, g i * n i) ^ 2 ≤ ∑ i, g i ^ 2 := by
  simp only [Fin.sum_univ_two] at hn ⊢
  nlinarith [sq_nonneg (g 0 * n 1 - g 1 * n 0), sq_nonneg (g 0), sq_nonneg (g 1)]

/-- Piecewise linear tracers with a diffusivity that is constant on cells satisfy the trace bound, with the number of
facets of a cell as constant. -/
theorem C75_trace_linear {facets : ℝ} (D : Cells m facets) (mu c : Sc m) (L : Linear D mu c)
    (hunit : m.UnitNormals) : TraceBound mu c facets := by
  unfold TraceBound
  let e : D.K → ℝ := fun k => D.vol k * (L.diff k * ∑ i, L.grad k i ^ 2)
  have he : ∀ k, 0 ≤ e k := fun k =>
    mul_nonneg (D.vol_nonneg k) (mul_nonneg (L.diff_nonneg k) (Finset.sum_nonneg fun i _ => sq_nonneg _))
  have h1 : (m.dS fun s => m.volP s / m.areaS s * (mu (.plus s)).v * (∑ i, (c (.plus s)).g i * m.np s i) ^ 2 +
      m.volM s / m.areaS s * (mu (.minus s)).v * (∑ i, (c (.minus s)).g i * m.nm s i) ^ 2) ≤
      (∑ s, m.wS s / m.areaS s * e (D.ofP s)) + ∑ s, m.wS s / m.areaS s * e (D.ofM s) := by
    unfold Mesh.dS
    rw [← Finset.sum_add_distrib]
    refine Finset.sum_le_sum fun s _ => ?_
    have hA := D.area_pos s
    have hw := m.wS_nonneg s
    have c1 := cauchy2 (L.grad (D.ofP s)) (m.np s) (hunit.1 s)
    have c2 := cauchy2 (L.grad (D.ofM s)) (m.nm s) (hunit.2.1 s)
    simp only [L.gP, L.gM, L.mP, L.mM, D.volP_eq, D.volM_eq]
    have k1 : 0 ≤ m.wS s / m.areaS s * (D.vol (D.ofP s) * L.diff (D.ofP s)) :=
      mul_nonneg (by positivity) (mul_nonneg (D.vol_nonneg _) (L.diff_nonneg _))
    have k2 : 0 ≤ m.wS s / m.areaS s * (D.vol (D.ofM s) * L.diff (D.ofM s)) :=
      mul_nonneg (by positivity) (mul_nonneg (D.vol_nonneg _) (L.diff_nonneg _))
    have l1 := mul_le_mul_of_nonneg_left c1 k1
    have l2 := mul_le_mul_of_nonneg_left c2 k2
    have t : m.wS s * (D.vol (D.ofP s) / m.areaS s * L.diff (D.ofP s) *
          (∑ i, L.grad (D.ofP s) i * m.np s i) ^ 2 +
        D.vol (D.ofM s) / m.areaS s * L.diff (D.ofM s) * (∑ i, L.grad (D.ofM s) i * m.nm s i) ^ 2) =
        m.wS s / m.areaS s * (D.vol (D.ofP s) * L.diff (D.ofP s)) * (∑ i, L.grad (D.ofP s) i * m.np s i) ^ 2 +
        m.wS s / m.areaS s * (D.vol (D.ofM s) * L.diff (D.ofM s)) * (∑ i, L.grad (D.ofM s) i * m.nm s i) ^ 2 := by
      field_simp
    rw [t]
    have u1 : m.wS s / m.areaS s * e (D.ofP s) =
        m.wS s / m.areaS s * (D.vol (D.ofP s) * L.diff (D.ofP s)) * ∑ i, L.grad (D.ofP s) i ^ 2 := by
      change _ * (_ * (_ * _)) = _; ring
    have u2 : m.wS s / m.areaS s * e (D.ofM s) =
        m.wS s / m.areaS s * (D.vol (D.ofM s) * L.diff (D.ofM s)) * ∑ i, L.grad (D.ofM s) i ^ 2 := by
      change _ * (_ * (_ * _)) = _; ring
    rw [u1, u2]
    linarith
  refine le_trans h1 ?_
  rw [sum_fiber D.ofP e, sum_fiber D.ofM e, ← Finset.sum_add_distrib]
  have h2 : (m.dx fun x => (mu (.cell x)).v * ∑ i, (c (.cell x)).g i ^ 2) = ∑ k, e k := by
    unfold Mesh.dx
    have : ∀ x, m.wC x * ((mu (.cell x)).v * ∑ i, (c (.cell x)).g i ^ 2) =
        m.wC x * (fun k => L.diff k * ∑ i, L.grad k i ^ 2) (D.ofC x) := by
      intro x; simp only [L.gC, L.mC]
    rw [Finset.sum_congr rfl fun x _ => this x, sum_fiber D.ofC (fun k => L.diff k * ∑ i, L.grad k i ^ 2)]
    refine Finset.sum_congr rfl fun k _ => ?_
    rw [D.sum_weights k]
    change _ = D.vol k * _
    ring
  rw [h2, Finset.mul_sum]
  refine Finset.sum_le_sum fun k _ => ?_
  rw [← mul_add]
  calc e k * _ ≤ e k * facets := mul_le_mul_of_nonneg_left (D.facet_count k) (he k)
    _ = facets * e k := mul_comm _ _

/-- C75: on triangles, with piecewise linear tracers and a diffusivity that is constant on cells, every penalty factor
of at least one half (the default is one) makes diffusion dissipative. -/
theorem C75_linear_triangles (T : Term m) (F : Flow m) (mu : Sc m) (bc : ℕ → Option (BFuncs m)) (c : Sc m)
    (D : Cells m 3) (L : Linear D mu c) (hflat : m.Flat) (hunit : m.UnitNormals)
    (hvol : ∀ s, 0 < m.volP s ∧ 0 < m.volM s) (hp : T.p = 1) (htri : T.triangle = true)
    (hsipg : ∀ s, 1 / 2 ≤ (T.sipg (.plus s)).v ∧ 1 / 2 ≤ (T.sipg (.minus s)).v)
    (hbc : ∀ j f, bc j = some f → ∃ q, f.diffFlux = some q ∧ ∀ b, q b = 0) :
    diffusion T F (some mu) bc c c ≤ 0 := by
  refine C75_dissipation T F mu bc c 3 (1 / 2) hflat hunit (fun s => ⟨(hvol s).1, (hvol s).2, D.area_pos s⟩)
    (fun x => by rw [L.mC]; exact L.diff_nonneg _)
    (fun s => ⟨by rw [L.mP]; exact L.diff_nonneg _, by rw [L.mM]; exact L.diff_nonneg _⟩)
    (by norm_num) (C75_trace_linear D mu c L hunit) hsipg ?_ hbc
  simp only [dofs, htri, if_true, hp]
  norm_num

/-! ### The square -/

/-- The two triangles. -/
inductive SqK
  | lo | up
deriving DecidableEq

instance : Fintype SqK := ⟨{.lo, .up}, by intro x; cases x <;> decide⟩

theorem sum_sqK (f : SqK → ℝ) : ∑ k, f k = f .lo + f .up := by
  have : (Finset.univ : Finset SqK) = {.lo, .up} := rfl
  rw [this]
  simp

/-- Triangle of a quadrature point. -/
def sqOf : SqC → SqK
  | .l0 | .l1 | .l2 => .lo
  | .u0 | .u1 | .u2 => .up

/-- The cells of the square. -/
noncomputable def sqCells : Cells square 3 where
  K := SqK
  ofC := sqOf
  ofP := fun _ => .lo
  ofM := fun _ => .up
  vol := fun _ => 1 / 2
  vol_nonneg := fun _ => by norm_num
  sum_weights := fun k => by
    refine Eq.trans (sum_sqC fun x => if sqOf x = k then (1 / 6 : ℝ) else 0) ?_
    cases k <;> simp [sqOf] <;> norm_num
  volP_eq := fun _ => rfl
  volM_eq := fun _ => rfl
  area_pos := fun _ => by change (0 : ℝ) < Real.sqrt 2; positivity
  facet_count := fun k => by
    have h := sum_sqS fun s => if SqK.lo = k then sqWS s / Real.sqrt 2 else 0
    have h' := sum_sqS fun s => if SqK.up = k then sqWS s / Real.sqrt 2 else 0
    refine le_trans (le_of_eq (congrArg₂ (· + ·) h h')) ?_
    have hs : Real.sqrt 2 ≠ 0 := by positivity
    cases k <;> simp [sqWS] <;> field_simp <;> norm_num

/-- Linear functions on the two triangles with different diffusivities. -/
noncomputable def sqLinear (a b : ℝ) (ha : 0 ≤ a) (hb : 0 ≤ b) (p q : Quad) (hp : p.d = 0 ∧ p.e = 0 ∧ p.f = 0)
    (hq : q.d = 0 ∧ q.e = 0 ∧ q.f = 0) :
    Linear sqCells (squareField ⟨a, 0, 0, 0, 0, 0⟩ ⟨b, 0, 0, 0, 0, 0⟩) (squareField p q) where
  grad := fun k => match k with
    | SqK.lo => ![p.b, p.c]
    | SqK.up => ![q.b, q.c]
  diff := fun k => match k with
    | SqK.lo => a
    | SqK.up => b
  diff_nonneg := fun k => by cases k <;> assumption
  gC := fun x i => by
    obtain ⟨h1, h2, h3⟩ := hp
    obtain ⟨h4, h5, h6⟩ := hq
    cases x <;> fin_cases i <;> simp [squareField, Quad.jet, sqCells, sqOf, h1, h2, h3, h4, h5, h6]
  gP := fun x i => by
    obtain ⟨h1, h2, h3⟩ := hp
    cases x <;> fin_cases i <;> simp [squareField, Quad.jet, sqCells, h1, h2, h3]
  gM := fun x i => by
    obtain ⟨h4, h5, h6⟩ := hq
    cases x <;> fin_cases i <;> simp [squareField, Quad.jet, sqCells, h4, h5, h6]
  mC := fun x => by cases x <;> simp [squareField, Quad.jet, sqCells, sqOf]
  mP := fun x => by cases x <;> simp [squareField, Quad.jet, sqCells]
  mM := fun x => by cases x <;> simp [squareField, Quad.jet, sqCells]

/-- The hypotheses of `C75_linear_triangles` hold on the square with the standard options. -/
example : diffusion exTerm exFlow (some (squareField ⟨1, 0, 0, 0, 0, 0⟩ ⟨5, 0, 0, 0, 0, 0⟩)) (fun _ => none)
    exTest exTest ≤ 0 :=
  C75_linear_triangles exTerm exFlow _ _ exTest sqCells
    (sqLinear 1 5 (by norm_num) (by norm_num) _ _ ⟨rfl, rfl, rfl⟩ ⟨rfl, rfl, rfl⟩) square_flat square_unit
    (fun s => ⟨by change (0 : ℝ) < 1 / 2; norm_num, by change (0 : ℝ) < 1 / 2; norm_num⟩) rfl rfl
    (fun s => ⟨by simp [exTerm]; norm_num, by simp [exTerm]; norm_num⟩) (fun j f h => by cases h)

/-- C75: the penalty is needed: with the factor zero the square of a tracer grows. -/
theorem C75_penalty_needed :
    0 < diffusion { exTerm with sipg := cst square 0 } exFlow (some (cst square 1)) (fun _ => none)
      (squareField ⟨1, 1, 1, 0, 0, 0⟩ ⟨0, 0, 0, 0, 0, 0⟩) (squareField ⟨1, 1, 1, 0, 0, 0⟩ ⟨0, 0, 0, 0, 0, 0⟩) := by
  set c : Sc square := squareField ⟨1, 1, 1, 0, 0, 0⟩ ⟨0, 0, 0, 0, 0, 0⟩ with hc
  rw [diffusion_eq]
  have hs : Real.sqrt 2 ≠ 0 := by positivity
  have h2 : Real.sqrt 2 * Real.sqrt 2 = 2 := Real.mul_self_sqrt (by norm_num)
  have hdx : (square.dx fun x => ∑ i, (c (.cell x)).g i * ((cst square 1 (.cell x)).v * (c (.cell x)).g i)) = 1 := by
    refine Eq.trans (sum_sqC fun x => (1 / 6 : ℝ) * ∑ i, (c (.cell x)).g i *
      ((cst square 1 (.cell x)).v * (c (.cell x)).g i)) ?_
    simp only [hc, squareField, Quad.jet, Fin.sum_univ_two, cst_apply, Jet.const_v, Matrix.cons_val_zero,
      Matrix.cons_val_one]
    norm_num
  have hsig : ∀ s, sigmaMax { exTerm with sipg := cst square 0 } s = 0 := by
    intro s; simp [sigmaMax, sigma]
  have hpt : ∀ s, sigmaMax { exTerm with sipg := cst square 0 } s *
        (∑ i, jumpN c s i * (avg (cst square 1) s * jumpN c s i)) -
      (∑ i, avgFlux (cst square 1) c s i * jumpN c s i) - (∑ i, jumpN c s i * avgFlux (cst square 1) c s i) =
      -4 / Real.sqrt 2 := by
    intro s
    have hnp : ∀ i, square.np s i = 1 / Real.sqrt 2 := fun _ => rfl
    rw [hsig]
    simp only [jumpN, avgFlux, Fin.sum_univ_two, square_flat s, hnp, cst_apply, Jet.const_v]
    cases s <;> simp only [hc, squareField, Quad.jet, Matrix.cons_val_zero, Matrix.cons_val_one] <;>
      field_simp <;> ring
  have hdS : (square.dS fun s => sigmaMax { exTerm with sipg := cst square 0 } s *
        (∑ i, jumpN c s i * (avg (cst square 1) s * jumpN c s i)) -
      (∑ i, avgFlux (cst square 1) c s i * jumpN c s i) - ∑ i, jumpN c s i * avgFlux (cst square 1) c s i) =
      -4 := by
    rw [dS_congr hpt]
    refine Eq.trans (sum_sqS fun s => sqWS s * (-4 / Real.sqrt 2)) ?_
    simp only [sqWS]
    field_simp
    norm_num
  rw [hdx, hdS]
  simp only [exTerm, if_true, diffBndFlux, zero_mul, mul_zero, Finset.sum_const_zero]
  norm_num

end Verif.Tracer2
