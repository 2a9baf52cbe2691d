import Verif.Diag.Props

/-! C104: error indicators; C105: kinetic energy. -/

namespace Verif.Diag

open Verif.Dg

variable {m : Mesh 2}

/-! ### Error indicators -/

/-- The value of a 0-form. -/
def ZeroForm.value (F : ZeroForm m) : ℝ :=
  (F.cell.map fun i => ∑ c, m.wC c * if i.on c then i.f c else 0).sum
    + (F.ext.map fun i => ∑ b, m.wB b * if i.on b then i.f b else 0).sum
    + (F.int.map fun i => ∑ s, m.wS s * if i.on s then i.f s else 0).sum

/-- The part of it over interior facets. -/
def ZeroForm.facets (F : ZeroForm m) : ℝ := (F.int.map fun i => ∑ s, m.wS s * if i.on s then i.f s else 0).sum

theorem dx_cells (T : Cells m) (f : T.K → ℝ) : m.dx (fun c => f (T.ofC c)) = ∑ k, T.vol k * f k := by
  unfold Mesh.dx Cells.vol
  simp only [Finset.sum_mul]
  rw [Finset.sum_comm]
  refine Finset.sum_congr rfl fun c _ => ?_
  rw [Finset.sum_eq_single (T.ofC c)]
  · simp
  · intro k _ hk
    rw [if_neg (fun h => hk h.symm), zero_mul]
  · intro h
    exact absurd (Finset.mem_univ _) h

/-- C104: the indicator of a cell is the sum of the integrals over the cell, its boundary facets and all of each of its
interior facets. -/
theorem C104_indicator (T : Cells m) (hT : ∀ k, T.vol k ≠ 0) (F : ZeroForm m) (eta : T.K → ℝ) (h : IsIndicator T F eta)
    (k : T.K) :
    eta k = (F.cell.map fun i => ∑ c, m.wC c * if T.ofC c = k then if i.on c then i.f c else 0 else 0).sum
      + (F.ext.map fun i => ∑ b, m.wB b * if T.ofB b = k then if i.on b then i.f b else 0 else 0).sum
      + (F.int.map fun i => (∑ s, m.wS s * if T.ofP s = k then if i.on s then i.f s else 0 else 0)
        + ∑ s, m.wS s * if T.ofM s = k then if i.on s then i.f s else 0 else 0).sum := by
  have h1 := h fun j => if j = k then 1 / T.vol k else 0
  have e : m.dx (fun c => eta (T.ofC c) * if T.ofC c = k then 1 / T.vol k else 0) = eta k := by
    rw [dx_cells T fun j => eta j * if j = k then 1 / T.vol k else 0, Finset.sum_eq_single k]
    · rw [if_pos rfl]
      have := hT k
      field_simp
    · intro j _ hj
      rw [if_neg hj, mul_zero, mul_zero]
    · intro h
      exact absurd (Finset.mem_univ _) h
  rw [e] at h1
  rw [h1]
  unfold indRhs
  have v : ∀ (j : T.K) (x : ℝ), T.vol j * (if j = k then 1 / T.vol k else 0) * x = if j = k then x else 0 := fun j x => by
    split
    · next hj =>
      subst hj
      have := hT j
      field_simp
    · simp
  simp only [v, Mesh.dx, Mesh.dS, Integral.at_]
  ring

theorem sum_ite_cells {P : Type} [Fintype P] (T : Cells m) (of : P → T.K) (w f : P → ℝ) :
    ∑ k, ∑ x, w x * (if of x = k then f x else 0) = ∑ x, w x * f x := by
  rw [Finset.sum_comm]
  refine Finset.sum_congr rfl fun x _ => ?_
  rw [Finset.sum_eq_single (of x)]
  · rw [if_pos rfl]
  · intro k _ hk
    rw [if_neg (fun h => hk h.symm), mul_zero]
  · intro h
    exact absurd (Finset.mem_univ _) h

theorem sum_map {I K : Type} [Fintype K] (l : List I) (f : K → I → ℝ) :
    ∑ k, (l.map (f k)).sum = (l.map fun i => ∑ k, f k i).sum := by
  induction l with
  | nil => simp
  | cons a l ih => simp [Finset.sum_add_distrib, ih]

/-- C104: the indicators of all cells add up to the functional plus its part over interior facets, which is counted in
both cells. -/
theorem C104_sum (T : Cells m) (hT : ∀ k, T.vol k ≠ 0) (F : ZeroForm m) (eta : T.K → ℝ) (h : IsIndicator T F eta) :
    ∑ k, eta k = F.value + F.facets := by
  rw [Finset.sum_congr rfl fun k _ => C104_indicator T hT F eta h k, Finset.sum_add_distrib, Finset.sum_add_distrib]
  simp only [sum_map, Finset.sum_add_distrib]
  simp only [sum_ite_cells]
  unfold ZeroForm.value ZeroForm.facets
  have : ∀ (l : List (Integral m.S)) (g : Integral m.S → ℝ), (l.map fun i => g i + g i).sum = (l.map g).sum + (l.map g).sum := by
    intro l g
    induction l with
    | nil => simp
    | cons a l ih => simp only [List.map_cons, List.sum_cons, ih]; ring
  rw [this]
  ring

/-- C104: the contributions of the cells add up to the functional if it has no integrals over interior facets. -/
theorem C104_sum_cells (T : Cells m) (hT : ∀ k, T.vol k ≠ 0) (F : ZeroForm m) (hF : F.int = []) (eta : T.K → ℝ)
    (h : IsIndicator T F eta) : ∑ k, eta k = F.value := by
  rw [C104_sum T hT F eta h]
  simp [ZeroForm.facets, hF]

/-- The indicators exist. -/
theorem indicator_exists (T : Cells m) (F : ZeroForm m) : ∃ eta, IsIndicator T F eta := by
  refine ⟨fun k => (F.cell.map fun i => ∑ c, m.wC c * if T.ofC c = k then i.at_ c else 0).sum
      + (F.ext.map fun i => ∑ b, m.wB b * if T.ofB b = k then i.at_ b else 0).sum
      + (F.int.map fun i => (∑ s, m.wS s * if T.ofP s = k then i.at_ s else 0)
        + ∑ s, m.wS s * if T.ofM s = k then i.at_ s else 0).sum, fun test => ?_⟩
  refine (dx_cells T fun k => ((F.cell.map fun i => ∑ c, m.wC c * if T.ofC c = k then i.at_ c else 0).sum
      + (F.ext.map fun i => ∑ b, m.wB b * if T.ofB b = k then i.at_ b else 0).sum
      + (F.int.map fun i => (∑ s, m.wS s * if T.ofP s = k then i.at_ s else 0)
        + ∑ s, m.wS s * if T.ofM s = k then i.at_ s else 0).sum) * test k).trans ?_
  have key : ∀ {P : Type} [Fintype P] (of : P → T.K) (w f : P → ℝ),
      ∑ k, T.vol k * test k * ∑ x, w x * (if of x = k then f x else 0) =
        ∑ x, w x * (T.vol (of x) * test (of x) * f x) := by
    intro P _ of w f
    simp only [Finset.mul_sum]
    rw [Finset.sum_comm]
    refine Finset.sum_congr rfl fun x _ => ?_
    rw [Finset.sum_eq_single (of x)]
    · rw [if_pos rfl]; ring
    · intro k _ hk
      rw [if_neg (fun h => hk h.symm)]; ring
    · intro h
      exact absurd (Finset.mem_univ _) h
  have mv : ∀ {I : Type} (l : List I) (a : ℝ) (f : I → ℝ), a * (l.map f).sum = (l.map fun i => a * f i).sum := by
    intro I l a f
    induction l with
    | nil => simp
    | cons x l ih => simp only [List.map_cons, List.sum_cons, mul_add, ih]
  have e : ∀ k, T.vol k * (((F.cell.map fun i => ∑ c, m.wC c * if T.ofC c = k then i.at_ c else 0).sum
      + (F.ext.map fun i => ∑ b, m.wB b * if T.ofB b = k then i.at_ b else 0).sum
      + (F.int.map fun i => (∑ s, m.wS s * if T.ofP s = k then i.at_ s else 0)
        + ∑ s, m.wS s * if T.ofM s = k then i.at_ s else 0).sum) * test k) =
      (F.cell.map fun i => T.vol k * test k * ∑ c, m.wC c * if T.ofC c = k then i.at_ c else 0).sum
      + (F.ext.map fun i => T.vol k * test k * ∑ b, m.wB b * if T.ofB b = k then i.at_ b else 0).sum
      + (F.int.map fun i => T.vol k * test k * (∑ s, m.wS s * if T.ofP s = k then i.at_ s else 0)
        + T.vol k * test k * ∑ s, m.wS s * if T.ofM s = k then i.at_ s else 0).sum := fun k => by
    have i3 : (F.int.map fun i => T.vol k * test k * (∑ s, m.wS s * if T.ofP s = k then i.at_ s else 0)
        + T.vol k * test k * ∑ s, m.wS s * if T.ofM s = k then i.at_ s else 0) =
        F.int.map fun i => T.vol k * test k * ((∑ s, m.wS s * if T.ofP s = k then i.at_ s else 0)
        + ∑ s, m.wS s * if T.ofM s = k then i.at_ s else 0) := by
      refine List.map_congr_left fun i _ => ?_
      ring
    rw [i3, ← mv, ← mv, ← mv]
    ring
  rw [Finset.sum_congr rfl fun k _ => e k, Finset.sum_add_distrib, Finset.sum_add_distrib]
  simp only [sum_map, Finset.sum_add_distrib, key]
  unfold indRhs Mesh.dx Mesh.dS
  ring

/-- The two triangles of the square. -/
def squareCells : Cells square where
  K := Bool
  ofC := fun c => match (c : SqC) with
    | .l0 | .l1 | .l2 => false
    | _ => true
  ofP := fun _ => false
  ofM := fun _ => true
  ofB := fun b => match (b : SqB) with
    | .b0 | .b1 | .b2 | .l0 | .l1 | .l2 => false
    | _ => true

theorem squareCells_vol (k : squareCells.K) : squareCells.vol k = 1 / 2 := by
  have l := sum_sqC fun c => if squareCells.ofC c = k then (1 / 6 : ℝ) else 0
  refine Eq.trans l ?_
  cases (k : Bool) <;> simp [squareCells] <;> norm_num

/-- Density -2 in the cells and 1 over the length on the diagonal. -/
noncomputable def squareForm : ZeroForm square where
  cell := [⟨fun _ => true, fun _ => -2⟩]
  int := [⟨fun _ => true, fun _ => 1 / Real.sqrt 2⟩]
  ext := []

/-- C104 is violated: a functional with the value -1 all of whose indicators are zero. -/
theorem C104_sum_violated : ∃ (T : Cells square) (F : ZeroForm square), (∀ k, T.vol k = 1 / 2) ∧ F.value = -1 ∧
    (∃ eta, IsIndicator T F eta) ∧ ∀ eta, IsIndicator T F eta → ∀ k, eta k = 0 := by
  have h2 : Real.sqrt 2 ≠ 0 := by positivity
  refine ⟨squareCells, squareForm, squareCells_vol, ?_, indicator_exists _ _, fun eta h k => ?_⟩
  · have a := sum_sqC fun _ => (1 / 6 : ℝ) * (-2)
    have b := sum_sqS fun s => sqWS s * (1 / Real.sqrt 2)
    have e : squareForm.value = (∑ _c : SqC, (1 / 6 : ℝ) * (-2)) + ∑ s : SqS, sqWS s * (1 / Real.sqrt 2) := by
      simp only [ZeroForm.value, squareForm, List.map_cons, List.map_nil, List.sum_cons, List.sum_nil, if_true]
      rw [add_zero, add_zero, add_zero]
      rfl
    rw [e, a, b]
    simp only [sqWS]
    field_simp
    norm_num
  · rw [C104_indicator squareCells (fun k => by rw [squareCells_vol]; norm_num) squareForm eta h k]
    have a := sum_sqC fun c => (1 / 6 : ℝ) * if squareCells.ofC c = k then (-2) else 0
    have b := sum_sqS fun s => sqWS s * if squareCells.ofP s = k then 1 / Real.sqrt 2 else 0
    have d := sum_sqS fun s => sqWS s * if squareCells.ofM s = k then 1 / Real.sqrt 2 else 0
    simp only [squareForm, List.map_cons, List.map_nil, List.sum_cons, List.sum_nil, if_true, add_zero]
    refine (congrArg₂ (· + ·) a (congrArg₂ (· + ·) b d)).trans ?_
    cases (k : Bool) <;> simp [squareCells, sqWS] <;> field_simp <;> norm_num

/-- C104: a functional made of a residual and a dual solution that belongs to the test space is zero, and then the
indicators add up to its part over interior facets. -/
theorem C104_orthogonal (T : Cells m) (hT : ∀ k, T.vol k ≠ 0) (R : Sc m → ZeroForm m) (V : Set (Sc m))
    (hV : ∀ test ∈ V, (R test).value = 0) (dual : Sc m) (hd : dual ∈ V) (eta : T.K → ℝ)
    (h : IsIndicator T (R dual) eta) : ∑ k, eta k = (R dual).facets := by
  rw [C104_sum T hT _ eta h, hV dual hd, zero_add]

/-- C104: unsupported steppers and dimensions are rejected, what is accepted has the dual solution on the mesh of the
solver. -/
theorem C104_accepted (stepper : String) (dim : ℕ) (same : Bool) :
    dwrInit stepper dim same = .ok () ↔ (stepper = "SteadyState" ∨ stepper = "CrankNicolson") ∧ dim = 2 ∧ same = true := by
  unfold dwrInit
  split
  · next h => simp [h]
  · next h =>
    rw [not_not] at h
    split
    · next h2 => simp [h2]
    · next h2 =>
      rw [not_not] at h2
      cases same <;> simp [h, h2]

/-- C104 is violated: for a dual solution on another mesh the documented `ValueError` is not raised but a `NameError`. -/
theorem C104_mesh_violated (stepper : String) (h : stepper = "SteadyState" ∨ stepper = "CrankNicolson") :
    dwrInit stepper 2 false = .error .nameError := by
  simp [dwrInit, h]

/-! ### Kinetic energy -/

/-- C105: interpolated kinetic energy is half the density times the square of the velocity, so it is not negative and zero
only where the water is at rest. -/
theorem C105_interpolated {N : Type} {n : ℕ} (rho : N → ℝ) (u : N → Fin (n + 2) → ℝ) (x : N) (hr : 0 < rho x) :
    keInterp false rho u x = rho x / 2 * ∑ i, u x i ^ 2 ∧ 0 ≤ keInterp false rho u x ∧
      (keInterp false rho u x = 0 ↔ u x = 0) := by
  have e : keInterp false rho u x = rho x / 2 * ∑ i, u x i ^ 2 := by
    unfold keInterp keExpr
    simp only [sq, Bool.false_eq_true, if_false]
    ring
  have hn : 0 ≤ ∑ i, u x i ^ 2 := Finset.sum_nonneg fun i _ => sq_nonneg _
  refine ⟨e, by rw [e]; positivity, ?_⟩
  rw [e, mul_eq_zero, or_iff_right (by positivity), Finset.sum_eq_zero_iff_of_nonneg fun i _ => sq_nonneg _]
  constructor
  · intro h
    funext i
    exact pow_eq_zero_iff two_ne_zero |>.1 (h i (Finset.mem_univ _))
  · intro h i _
    simp [h]

/-- C105: the horizontal kinetic energy leaves out the vertical velocity; with two components it is the kinetic energy. -/
theorem C105_horizontal {N : Type} (rho : N → ℝ) (u : N → Fin 3 → ℝ) (u2 : N → Fin 2 → ℝ) (x : N) :
    keInterp (n := 1) false rho u x = keInterp (n := 1) true rho u x + rho x / 2 * u x 2 ^ 2 ∧
      keInterp (n := 0) true rho u2 x = keInterp (n := 0) false rho u2 x := by
  constructor
  · simp only [keInterp, keExpr, Fin.sum_univ_succ, Fin.sum_univ_zero]
    norm_num
    ring
  · simp [keInterp, keExpr]

/-- C105: projected kinetic energy has the right total. -/
theorem C105_total {n : ℕ} (K : Set (Sc m)) (h1 : cst m 1 ∈ K) (rho : m.C → ℝ) (u : m.C → Fin (n + 2) → ℝ) (ke : Sc m)
    (h : IsKeProj K false rho u ke) :
    m.dx (fun c => (ke (.cell c)).v) = m.dx fun c => rho c / 2 * ∑ i, u c i ^ 2 := by
  have := h.2 _ h1
  simp only [cst_apply, Jet.const_v, mul_one] at this
  rw [this]
  refine dx_congr fun c => ?_
  unfold keExpr
  simp only [sq, Bool.false_eq_true, if_false]
  ring

/-- C105 is violated for projected kinetic energy: the flow `(x, 0)` has negative kinetic energy near `x = 0`. -/
theorem C105_negative_violated : ∃ u : square.C → Fin 2 → ℝ, (∃ ke, IsKeProj (n := 0) NonHyd.linear false (fun _ => 2) u ke) ∧
    ∀ ke, IsKeProj (n := 0) NonHyd.linear false (fun _ => 2) u ke → ∃ c : square.C, (ke (.cell c)).v < 0 := by
  let u : square.C → Fin 2 → ℝ := fun c => ![(squareField ⟨0, 1, 0, 0, 0, 0⟩ ⟨0, 1, 0, 0, 0, 0⟩ (.cell c)).v, 0]
  have hs : IsKeProj (n := 0) NonHyd.linear false (fun _ => 2) u
      (squareField ⟨-1 / 6, 1, 0, 0, 0, 0⟩ ⟨-1 / 6, 1, 0, 0, 0, 0⟩) := by
    refine ⟨⟨_, rfl, rfl, rfl, rfl⟩, ?_⟩
    rintro _ ⟨p, h1, h2, h3, rfl⟩
    have a := sum_sqC fun c => (1 / 6 : ℝ) * ((squareField ⟨-1 / 6, 1, 0, 0, 0, 0⟩ ⟨-1 / 6, 1, 0, 0, 0, 0⟩ (.cell c)).v
      * (squareField p p (.cell c)).v)
    have b := sum_sqC fun c => (1 / 6 : ℝ) * (keExpr (n := 0) false 2 (u c) * (squareField p p (.cell c)).v)
    refine a.trans (Eq.trans ?_ b.symm)
    simp only [squareField, Quad.jet, keExpr, u, h1, h2, h3, Bool.false_eq_true, if_false]
    norm_num [Fin.sum_univ_succ]
    ring
  refine ⟨u, ⟨_, hs⟩, fun ke h => ⟨SqC.l2, ?_⟩⟩
  rw [eq_of_proj NonHyd.linear NonHyd.linear_sub ke _ h.1 hs.1 (fun t ht => by rw [h.2 t ht, hs.2 t ht]) SqC.l2
    (by change (0 : ℝ) < 1 / 6; norm_num)]
  norm_num [squareField, Quad.jet]

end Verif.Diag
