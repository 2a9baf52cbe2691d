import Verif.Ext.Lemmas
import Mathlib.Tactic.FinCases
import Mathlib.Tactic.NormNum

/-!
A mesh for the examples: the tank `0 ≤ x, y ≤ 1`, `-3 + x ≤ z ≤ 0` with a sloping bottom and two layers that meet
at `z = -1`.  Each cell and facet has one quadrature point, its centroid.  The divergence theorem holds for all
vector fields that are linear in each layer.
-/

namespace Verif.Ext

open Verif.Dg

/-- A polynomial `a + b x + c y + d z`. -/
structure Lin where
  a : ℝ
  b : ℝ
  c : ℝ
  d : ℝ

/-- Its value and gradient. -/
def Lin.jet (q : Lin) (x y z : ℝ) : Jet 3 := ⟨q.a + q.b * x + q.c * y + q.d * z, ![q.b, q.c, q.d]⟩

/-- The layers. -/
inductive TkC
  | lo | up
deriving DecidableEq

/-- The facet between the layers. -/
inductive TkS
  | mid
deriving DecidableEq

/-- Boundary facets: surface, bottom and the sides of both layers. -/
inductive TkB
  | surf | bed | left0 | left1 | right0 | right1 | front0 | front1 | back0 | back1
deriving DecidableEq

instance : Fintype TkC := ⟨{.lo, .up}, by intro x; cases x <;> decide⟩
instance : Fintype TkS := ⟨{.mid}, by intro x; cases x; decide⟩
instance : Fintype TkB :=
  ⟨{.surf, .bed, .left0, .left1, .right0, .right1, .front0, .front1, .back0, .back1}, by
    intro x; cases x <;> decide⟩

/-- Volumes. -/
noncomputable def tkWC : TkC → ℝ
  | .lo => 3 / 2
  | .up => 1

/-- Areas. -/
noncomputable def tkWB : TkB → ℝ
  | .bed => Real.sqrt 2
  | .left0 => 2
  | .front0 | .back0 => 3 / 2
  | _ => 1

/-- Normals. -/
noncomputable def tkN : TkB → Fin 3 → ℝ
  | .surf => ![0, 0, 1]
  | .bed => ![1 / Real.sqrt 2, 0, -(1 / Real.sqrt 2)]
  | .left0 | .left1 => ![-1, 0, 0]
  | .right0 | .right1 => ![1, 0, 0]
  | .front0 | .front1 => ![0, -1, 0]
  | .back0 | .back1 => ![0, 1, 0]

/-- Ids of the sides; those of the surface and the bottom are not used. -/
def tkMarker : TkB → ℕ
  | .right0 | .right1 => 2
  | .front0 | .front1 => 3
  | .back0 | .back1 => 4
  | _ => 1

/-- Surface, bottom or side. -/
def tkFace : TkB → Face
  | .surf => .surf
  | .bed => .bottom
  | _ => .side

/-- The tank as a mesh. -/
noncomputable def tankM : Mesh 3 where
  C := TkC
  S := TkS
  B := TkB
  wC := tkWC
  wS := fun _ => 1
  wB := tkWB
  np := fun _ => ![0, 0, 1]
  nm := fun _ => ![0, 0, -1]
  nb := tkN
  marker := tkMarker
  markers := [1, 2, 3, 4]
  volP := fun _ => 3 / 2
  volM := fun _ => 1
  volB := fun _ => 1
  areaS := fun _ => 1
  areaB := tkWB
  wC_nonneg := fun c => by cases c <;> simp only [tkWC] <;> norm_num
  wS_nonneg := fun _ => by norm_num
  wB_nonneg := fun b => by cases b <;> simp only [tkWB] <;> positivity
  markers_nodup := by decide
  marker_mem := by intro b; cases b <;> decide

/-- The tank. -/
noncomputable def tank : Mesh3 := ⟨tankM, fun _ => true, tkFace⟩

/-- The expression that is `lo` in the lower and `up` in the upper layer. -/
noncomputable def tankField (lo up : Lin) : Sc tank.m
  | .cell TkC.lo => lo.jet (4 / 9) (1 / 2) (-(16 / 9))
  | .cell TkC.up => up.jet (1 / 2) (1 / 2) (-(1 / 2))
  | .plus TkS.mid => lo.jet (1 / 2) (1 / 2) (-1)
  | .minus TkS.mid => up.jet (1 / 2) (1 / 2) (-1)
  | .bnd TkB.surf => up.jet (1 / 2) (1 / 2) 0
  | .bnd TkB.bed => lo.jet (1 / 2) (1 / 2) (-(5 / 2))
  | .bnd TkB.left0 => lo.jet 0 (1 / 2) (-2)
  | .bnd TkB.left1 => up.jet 0 (1 / 2) (-(1 / 2))
  | .bnd TkB.right0 => lo.jet 1 (1 / 2) (-(3 / 2))
  | .bnd TkB.right1 => up.jet 1 (1 / 2) (-(1 / 2))
  | .bnd TkB.front0 => lo.jet (4 / 9) 0 (-(16 / 9))
  | .bnd TkB.front1 => up.jet (1 / 2) 0 (-(1 / 2))
  | .bnd TkB.back0 => lo.jet (4 / 9) 1 (-(16 / 9))
  | .bnd TkB.back1 => up.jet (1 / 2) 1 (-(1 / 2))

theorem tank_flat : tank.m.Flat := by
  intro s i
  change (![0, 0, -1] : Fin 3 → ℝ) i = -(![0, 0, 1] : Fin 3 → ℝ) i
  fin_cases i <;> simp

theorem sum_tkC (f : TkC → ℝ) : ∑ c, f c = f .lo + f .up := by
  have : (Finset.univ : Finset TkC) = {.lo, .up} := rfl
  rw [this]; simp

theorem sum_tkS (f : TkS → ℝ) : ∑ c, f c = f .mid := by
  have : (Finset.univ : Finset TkS) = {.mid} := rfl
  rw [this]; simp

theorem sum_tkB (f : TkB → ℝ) : ∑ c, f c = f .surf + f .bed + f .left0 + f .left1 + f .right0 + f .right1 +
    f .front0 + f .front1 + f .back0 + f .back1 := by
  have : (Finset.univ : Finset TkB) =
      {.surf, .bed, .left0, .left1, .right0, .right1, .front0, .front1, .back0, .back1} := rfl
  rw [this]
  simp [add_assoc]

/-- `∫ f dx` in the tank. -/
theorem tank_dx (f : TkC → ℝ) : tank.m.dx f = 3 / 2 * f .lo + f .up := by
  have : tank.m.dx f = ∑ c : TkC, tkWC c * f c := rfl
  rw [this, sum_tkC]; simp [tkWC]

/-- `∫ f dS_h` in the tank. -/
theorem tank_dSh (f : TkS → ℝ) : tank.dSh f = f .mid := by
  have : tank.dSh f = ∑ c : TkS, 1 * (if true = true then f c else 0) := rfl
  rw [this, sum_tkS]; simp

/-- `∫ f dS_v` in the tank. -/
theorem tank_dSv (f : TkS → ℝ) : tank.dSv f = 0 := by
  have : tank.dSv f = ∑ c : TkS, 1 * (if true = true then 0 else f c) := rfl
  rw [this, sum_tkS]; simp

theorem tank_dS (f : TkS → ℝ) : tank.m.dS f = f .mid := by
  have : tank.m.dS f = ∑ c : TkS, 1 * f c := rfl
  rw [this, sum_tkS]; simp

/-- `∫ f ds_surf` in the tank. -/
theorem tank_dsurf (f : TkB → ℝ) : tank.dsurf f = f .surf := by
  have : tank.dsurf f = ∑ b : TkB, tkWB b * (if tkFace b = .surf then f b else 0) := rfl
  rw [this, sum_tkB]; simp [tkWB, tkFace]

/-- `∫ f ds_bottom` in the tank. -/
theorem tank_dbottom (f : TkB → ℝ) : tank.dbottom f = Real.sqrt 2 * f .bed := by
  have : tank.dbottom f = ∑ b : TkB, tkWB b * (if tkFace b = .bottom then f b else 0) := rfl
  rw [this, sum_tkB]; simp [tkWB, tkFace]

/-- The loop over the sides of the tank. -/
theorem tank_sideLoop (f : ℕ → TkB → ℝ) : tank.sideLoop f = 2 * f 1 .left0 + f 1 .left1 + f 2 .right0 +
    f 2 .right1 + 3 / 2 * f 3 .front0 + f 3 .front1 + 3 / 2 * f 4 .back0 + f 4 .back1 := by
  refine (sideLoop_eq (e := tank) f).trans ?_
  change (∑ b : TkB, tkWB b * (if tkFace b = .side then f (tkMarker b) b else 0)) = _
  rw [sum_tkB]; simp [tkWB, tkFace, tkMarker]

/-- The quadrature of the tank is exact for vector fields that are linear in each layer. -/
theorem tank_divExact (lo up : Fin 3 → Lin) : DivExact tank.m (fun i => tankField (lo i) (up i)) := by
  have h : Real.sqrt 2 ≠ 0 := by positivity
  unfold DivExact
  rw [show tank.m.dx (fun c => div (fun i => tankField (lo i) (up i)) (.cell c)) = _ from tank_dx _,
    show tank.m.dS (fun s => jumpV (fun i => tankField (lo i) (up i)) s) = _ from tank_dS _]
  change _ = _ + ∑ b : TkB, tkWB b * ∑ i, (tankField (lo i) (up i) (.bnd b)).v * tkN b i
  rw [sum_tkB]
  change 3 / 2 * (∑ i, (tankField (lo i) (up i) (.cell TkC.lo)).g i) +
    (∑ i, (tankField (lo i) (up i) (.cell TkC.up)).g i) =
    ((∑ i, (tankField (lo i) (up i) (.plus TkS.mid)).v * (![0, 0, 1] : Fin 3 → ℝ) i) +
      ∑ i, (tankField (lo i) (up i) (.minus TkS.mid)).v * (![0, 0, -1] : Fin 3 → ℝ) i) + _
  simp only [Fin.sum_univ_three, tankField, Lin.jet, tkWB, tkN,
    Matrix.cons_val_zero, Matrix.cons_val_one, Matrix.cons_val_two, Matrix.tail_cons, Matrix.head_cons]
  field_simp
  ring

end Verif.Ext
