import Verif.Ale.Props3

/-!
C133: in a closed basin without sources the coupled time integrators do not keep the amount of tracer, although the
volume is kept to the last digit.  The surface of the mesh moves with the 2D mode over a whole step, the vertical
velocity belongs to the velocity of one stage; the difference is a flow through the surface.

The basin has two columns with one layer, of depth 1 at rest, and three vertical lines of nodes.  The tracer is constant
in each cell, the velocity is uniform, and the surface is linear in each column.
-/

set_option linter.unusedSectionVars false

namespace Verif.Ale

open Verif.Dg Verif.Ext Verif.Tracer3

/-- The columns. -/
inductive TiC
  | west | east
deriving DecidableEq

/-- The facet between the columns. -/
inductive TiS
  | mid
deriving DecidableEq

/-- Boundary facets. -/
inductive TiB
  | surfW | surfE | bedW | bedE | wallW | wallE | frontW | frontE | backW | backE
deriving DecidableEq

instance : Fintype TiC := ⟨{.west, .east}, by intro x; cases x <;> decide⟩
instance : Fintype TiS := ⟨{.mid}, by intro x; cases x; decide⟩
instance : Fintype TiB :=
  ⟨{.surfW, .surfE, .bedW, .bedE, .wallW, .wallE, .frontW, .frontE, .backW, .backE}, by intro x; cases x <;> decide⟩

theorem sum_tiC (f : TiC → ℝ) : ∑ c, f c = f .west + f .east := by
  change ∑ c ∈ ({.west, .east} : Finset TiC), f c = _
  rw [Finset.sum_insert (by decide), Finset.sum_singleton]

theorem sum_tiS (f : TiS → ℝ) : ∑ c, f c = f .mid := by
  change ∑ c ∈ ({.mid} : Finset TiS), f c = _
  rw [Finset.sum_singleton]

theorem sum_tiB (f : TiB → ℝ) : ∑ b, f b = f .surfW + f .surfE + f .bedW + f .bedE + f .wallW + f .wallE +
    f .frontW + f .frontE + f .backW + f .backE := by
  change ∑ b ∈ ({.surfW, .surfE, .bedW, .bedE, .wallW, .wallE, .frontW, .frontE, .backW, .backE} : Finset TiB), f b = _
  rw [Finset.sum_insert (by decide), Finset.sum_insert (by decide), Finset.sum_insert (by decide),
    Finset.sum_insert (by decide), Finset.sum_insert (by decide), Finset.sum_insert (by decide),
    Finset.sum_insert (by decide), Finset.sum_insert (by decide), Finset.sum_insert (by decide), Finset.sum_singleton]
  ring

/-- The elevation in the middle of a column. -/
noncomputable def tiMid (f : Fin 3 → ℝ) : TiC → ℝ
  | .west => (f 0 + f 1) / 2
  | .east => (f 1 + f 2) / 2

/-- The slope of the surface; the columns have length 1. -/
def tiSlope (f : Fin 3 → ℝ) : TiC → ℝ
  | .west => f 1 - f 0
  | .east => f 2 - f 1

/-- The height of the middle of a column. -/
noncomputable def tiH (eta : Fin 3 → ℝ) (c : TiC) : ℝ := tiMid eta c + 1

/-- Length of the inclined surface. -/
noncomputable def tiLen (eta : Fin 3 → ℝ) (c : TiC) : ℝ := Real.sqrt (1 + tiSlope eta c ^ 2)

theorem tiLen_pos (eta : Fin 3 → ℝ) (c : TiC) : 0 < tiLen eta c := Real.sqrt_pos.2 (by positivity)

/-- Areas. -/
noncomputable def tiWB (eta : Fin 3 → ℝ) : TiB → ℝ
  | .surfW => tiLen eta .west
  | .surfE => tiLen eta .east
  | .bedW | .bedE => 1
  | .wallW => |eta 0 + 1|
  | .wallE => |eta 2 + 1|
  | .frontW | .backW => |tiH eta .west|
  | .frontE | .backE => |tiH eta .east|

/-- Normals. -/
noncomputable def tiN (eta : Fin 3 → ℝ) : TiB → Fin 3 → ℝ
  | .surfW => ![-tiSlope eta .west / tiLen eta .west, 0, 1 / tiLen eta .west]
  | .surfE => ![-tiSlope eta .east / tiLen eta .east, 0, 1 / tiLen eta .east]
  | .bedW | .bedE => ![0, 0, -1]
  | .wallW => ![-1, 0, 0]
  | .wallE => ![1, 0, 0]
  | .frontW | .frontE => ![0, -1, 0]
  | .backW | .backE => ![0, 1, 0]

/-- Surface, bottom and sides. -/
def tiFace : TiB → Face
  | .surfW | .surfE => .surf
  | .bedW | .bedE => .bottom
  | _ => .side

/-- The basin as a mesh. -/
noncomputable def tiM (eta : Fin 3 → ℝ) : Mesh 3 where
  C := TiC
  S := TiS
  B := TiB
  wC := fun c => |tiH eta c|
  wS := fun _ => |eta 1 + 1|
  wB := tiWB eta
  np := fun _ => ![1, 0, 0]
  nm := fun _ => ![-1, 0, 0]
  nb := tiN eta
  marker := fun _ => 1
  markers := [1]
  volP := fun _ => |tiH eta .west|
  volM := fun _ => |tiH eta .east|
  volB := fun _ => 1
  areaS := fun _ => |eta 1 + 1|
  areaB := tiWB eta
  wC_nonneg := fun _ => abs_nonneg _
  wS_nonneg := fun _ => abs_nonneg _
  wB_nonneg := fun b => by
    cases b <;> simp only [tiWB] <;> first | exact abs_nonneg _ | exact (tiLen_pos _ _).le | norm_num
  markers_nodup := by decide
  marker_mem := by intro b; decide

/-- The extruded mesh: the interior facet is vertical. -/
noncomputable def tiMesh (eta : Fin 3 → ℝ) : Mesh3 := ⟨tiM eta, fun _ => false, tiFace⟩

/-- The column of a point. -/
def tiCell {eta : Fin 3 → ℝ} : Pt (tiM eta) → TiC
  | .cell c => c
  | .plus _ => .west
  | .minus _ => .east
  | .bnd b => match b with
    | TiB.surfW | TiB.bedW | TiB.wallW | TiB.frontW | TiB.backW => .west
    | _ => .east

/-- The value at a point of a function that is linear in each column and does not depend on height. -/
noncomputable def tiAt {eta : Fin 3 → ℝ} (f : Fin 3 → ℝ) : Pt (tiM eta) → ℝ
  | .cell c => tiMid f c
  | .plus _ => f 1
  | .minus _ => f 1
  | .bnd b => match b with
    | TiB.wallW => f 0
    | TiB.wallE => f 2
    | TiB.surfW | TiB.bedW | TiB.frontW | TiB.backW => tiMid f .west
    | _ => tiMid f .east

/-- The height of a point in the mesh at rest. -/
noncomputable def tiZ {eta : Fin 3 → ℝ} : Pt (tiM eta) → ℝ
  | .bnd b => match b with
    | TiB.surfW | TiB.surfE => 0
    | TiB.bedW | TiB.bedE => -1
    | _ => -(1 / 2)
  | _ => -(1 / 2)

/-- A tracer that is constant in each cell. -/
def tiT (eta : Fin 3 → ℝ) (u : TiC → ℝ) : Sc (tiM eta) := fun p => Jet.const (u (tiCell p))

/-- A function that grows linearly with height from zero at the bed to `f` at the surface, with its derivatives on the
moved mesh. -/
noncomputable def tiW (eta : Fin 3 → ℝ) (f s : Pt (tiM eta) → ℝ) : Sc (tiM eta) := fun p =>
  ⟨newW 1 (f p) (tiZ p),
    ![s p * (tiZ p + 1) - f p * (tiZ p + 1) * tiSlope eta (tiCell p) / (tiAt eta p + 1), 0, f p / (tiAt eta p + 1)]⟩

/-- The mesh velocity. -/
noncomputable def tiWm (eta ws : Fin 3 → ℝ) : Sc (tiM eta) := tiW eta (tiAt ws) fun p => tiSlope ws (tiCell p)

/-- The basin at rest. -/
noncomputable def tiRef : Ref (Fin 3) TiC where
  bath := fun _ => 1
  wq := fun _ => 1
  phi := fun c h => match c with
    | .west => ![1 / 2, 1 / 2, 0] h
    | .east => ![0, 1 / 2, 1 / 2] h
  lo := fun _ _ => -1
  hi := fun _ _ => 0

/-- The basin with its functions.  The vertical velocity at the surface is constant in each column. -/
noncomputable def tiGeo : Geo (Fin 3) TiC TiC ℝ (TiC → ℝ) where
  ref := tiRef
  mesh := tiMesh
  pt := fun _ => Equiv.refl TiC
  tr := tiT
  vel := fun eta u i => cst (tiM eta) (if i = 0 then u else 0)
  wf := fun eta w => tiW eta (fun p => w (tiCell p)) fun _ => 0
  wm := tiWm

theorem ti_jac (eta : Fin 3 → ℝ) (x : TiC) : tiRef.jac eta x = tiH eta x := by
  cases x <;> simp [Ref.jac, tiRef, newZ, tiH, tiMid, Fin.sum_univ_three] <;> ring

theorem ti_rate (ws : Fin 3 → ℝ) (x : TiC) : tiRef.rate ws x = tiMid ws x := by
  cases x <;> simp [Ref.rate, tiRef, newW, tiMid, Fin.sum_univ_three] <;> ring

theorem ti_wet {eta : Fin 3 → ℝ} (h : Wet tiRef eta) (c : TiC) : 0 < tiH eta c := by
  have h0 := h 0
  have h1 := h 1
  have h2 := h 2
  simp only [tiRef] at h0 h1 h2
  cases c <;> unfold tiH tiMid <;> simp only <;> linarith

theorem ti_dx (eta : Fin 3 → ℝ) (f : TiC → ℝ) :
    (tiMesh eta).m.dx f = |tiH eta .west| * f .west + |tiH eta .east| * f .east := by
  have : (tiMesh eta).m.dx f = ∑ c : TiC, |tiH eta c| * f c := rfl
  rw [this, sum_tiC]

theorem ti_dSh (eta : Fin 3 → ℝ) (f : TiS → ℝ) : (tiMesh eta).dSh f = 0 := by
  have : (tiMesh eta).dSh f = ∑ c : TiS, |eta 1 + 1| * (if false = true then f c else 0) := rfl
  rw [this, sum_tiS]; simp

theorem ti_dSv (eta : Fin 3 → ℝ) (f : TiS → ℝ) : (tiMesh eta).dSv f = |eta 1 + 1| * f .mid := by
  have : (tiMesh eta).dSv f = ∑ c : TiS, |eta 1 + 1| * (if false = true then 0 else f c) := rfl
  rw [this, sum_tiS]; simp

theorem ti_dsurf (eta : Fin 3 → ℝ) (f : TiB → ℝ) :
    (tiMesh eta).dsurf f = tiLen eta .west * f .surfW + tiLen eta .east * f .surfE := by
  have : (tiMesh eta).dsurf f = ∑ b : TiB, tiWB eta b * (if tiFace b = .surf then f b else 0) := rfl
  rw [this, sum_tiB]; simp [tiWB, tiFace]

theorem ti_exact (eta ws : Fin 3 → ℝ) (u : TiC → ℝ) (hl : ∀ c, 0 < tiH eta c) :
    DivExact (tiM eta) fun j => tiT eta u * if j = 2 then tiWm eta ws else cst (tiM eta) 0 := by
  have hg : ∀ c : TiC, div (fun j : Fin 3 => tiT eta u * if j = 2 then tiWm eta ws else cst (tiM eta) 0)
      (.cell c) = u c * (tiMid ws c / tiH eta c) := by
    intro c
    unfold div
    rw [Fin.sum_univ_three]
    change (0 * 0 + u c * 0) + (0 * 0 + u c * 0) + (0 * _ + u c * (tiMid ws c / (tiMid eta c + 1))) = _
    unfold tiH
    ring
  have hv : ∀ p : Pt (tiM eta), ((tiT eta u * tiWm eta ws) p).v = u (tiCell p) * newW 1 (tiAt ws p) (tiZ p) :=
    fun _ => rfl
  have h0 : ∀ p : Pt (tiM eta), ((tiT eta u * cst (tiM eta) 0) p).v = 0 := fun p => mul_zero (u (tiCell p))
  have hn : ∀ b : TiB, normalAt (m := tiM eta) (fun j : Fin 3 => tiT eta u * if j = 2 then tiWm eta ws else
      cst (tiM eta) 0) b = u (tiCell (eta := eta) (.bnd b)) *
        newW 1 (tiAt (eta := eta) ws (.bnd b)) (tiZ (eta := eta) (.bnd b)) * tiN eta b 2 := by
    intro b
    unfold normalAt
    rw [Fin.sum_univ_three]
    change ((tiT eta u * cst (tiM eta) 0) _).v * _ + ((tiT eta u * cst (tiM eta) 0) _).v * _ +
      ((tiT eta u * tiWm eta ws) _).v * tiN eta b 2 = _
    rw [h0, hv]
    ring
  have hj : jumpV (m := tiM eta) (fun j : Fin 3 => tiT eta u * if j = 2 then tiWm eta ws else
      cst (tiM eta) 0) TiS.mid = 0 := by
    unfold jumpV
    simp only [Fin.sum_univ_three]
    change (((tiT eta u * cst (tiM eta) 0) _).v * _ + ((tiT eta u * cst (tiM eta) 0) _).v * _ + _ * 0) +
      (((tiT eta u * cst (tiM eta) 0) _).v * _ + ((tiT eta u * cst (tiM eta) 0) _).v * _ + _ * 0) = _
    rw [h0, h0]
    ring
  unfold DivExact
  change (∑ c : TiC, |tiH eta c| * div (m := tiM eta) _ (.cell c)) = (∑ s : TiS, |eta 1 + 1| * jumpV (m := tiM eta) _ s) + ∑ b : TiB, tiWB eta b * normalAt (m := tiM eta) _ b
  rw [sum_tiC, sum_tiS, sum_tiB, hg, hg, hj]
  simp only [hn]
  have l1 := (tiLen_pos eta .west).ne'
  have l2 := (tiLen_pos eta .east).ne'
  have n1 := (hl .west).ne'
  have n2 := (hl .east).ne'
  simp only [tiN, tiWB, tiZ, tiCell, tiAt, abs_of_pos (hl _), newW, Matrix.cons_val_two, Matrix.tail_cons,
    Matrix.head_cons]
  field_simp
  ring

theorem ti_fits : Fits tiGeo (fun i x => if x = i then 1 else 0) (fun _ => 1) where
  ref := by
    refine ⟨fun _ => ?_, fun _ => ?_, fun x h => ?_, fun x => ⟨1, ?_⟩, fun x _ => ?_⟩
    · change (0 : ℝ) < 1; norm_num
    · change (0 : ℝ) < 1; norm_num
    · cases x <;> fin_cases h <;> norm_num [tiGeo, tiRef]
    · cases x <;> norm_num [tiGeo, tiRef]
    · change (-1 : ℝ) < 0; norm_num
  weight := fun eta x => by
    change TiC at x
    change |tiH eta x| = 1 * |tiRef.jac eta _|
    rw [one_mul]
    exact congrArg _ (ti_jac eta x).symm
  value := fun eta u x => by
    change TiC at x
    change u x = ∑ i, u i * if x = i then 1 else 0
    rw [sum_tiC]
    cases x <;> simp
  one := fun eta k => by
    funext p
    change Jet.const (k * 1) = Jet.const k
    rw [mul_one]
  lin := fun eta a b c => by
    funext p
    apply Jet.ext
    · rfl
    · funext i
      change 0 = 0 + (0 * _ + b * 0)
      ring
  independent := fun u h => by
    funext x
    have := h x
    rw [sum_tiC] at this
    cases x <;> simpa using this
  slope := fun eta ws x he => by
    change TiC at x
    change tiMid ws x / (tiMid eta x + 1) * tiRef.jac eta x = tiRef.rate ws x
    rw [ti_jac, ti_rate]
    have := (ti_wet he x).ne'
    unfold tiH at this ⊢
    field_simp
  cont := fun eta ws s h => by cases h
  bed := fun eta ws b => by
    change tiFace b = .bottom → newW 1 (tiAt (eta := eta) ws (.bnd b)) (tiZ (eta := eta) (.bnd b)) = 0
    cases b <;> simp [tiFace, tiZ, newW]
  flat := fun eta s i => by
    change (![-1, 0, 0] : Fin 3 → ℝ) i = -(![1, 0, 0] : Fin 3 → ℝ) i
    fin_cases i <;> simp
  vert := fun eta s _ => rfl
  side := fun eta b => by
    change tiFace b = .side → tiN eta b 2 = 0
    cases b <;> simp [tiFace, tiN]
  exact := fun eta ws i he => ti_exact eta ws (Pi.single i 1) (ti_wet he)
  hor := fun eta u b _ => rfl

/-- The vertical velocity at the surface: what flows from west to east through the facet between the columns, and the
flow along the inclined surface. -/
noncomputable def tiSolve (eta : Fin 3 → ℝ) (u : ℝ) : TiC → ℝ
  | .west => tiSlope eta .west * u - u * |eta 1 + 1|
  | .east => tiSlope eta .east * u + u * |eta 1 + 1|

/-- A solver for the closed basin: no boundary conditions, no sources, no diffusion.  The elevation is `-a` at the west
end, zero in the middle and `a` at the east end. -/
noncomputable def tiEnv (T : Type) (swe : ℕ → ℕ → St (Fin 3) ℝ (TiC → ℝ) ℝ ℝ T → ℝ × ℝ) :
    Env (Fin 3) ℝ (TiC → ℝ) ℝ ℝ T TiC TiC tiGeo where
  dt := 1 / 10
  ale := true
  limit := false
  implicit := false
  cg := fun a => ![-a, 0, a]
  average := fun _ u => u
  copy := fun u => u
  wSolve := tiSolve
  massSolve := fun eta r i => r i / |tiH eta i|
  lim := fun _ u => u
  diffuse := fun _ _ u => u
  swe := swe
  mom := fun _ _ s => s.uv
  term := fun _ => ⟨true, true, true, false, 5, cst _ 5, 0, 0, true, 0⟩
  bc := fun _ _ _ _ => none
  rest := fun _ _ _ => ⟨none, none, cst _ 0, none, none, 1, none, none, none⟩


theorem ti_normal (eta : Fin 3 → ℝ) (u d : ℝ) (b : TiB) : normalH (e := tiMesh eta)
    (fun i => cst (tiM eta) (if i = 0 then u else 0) + cst (tiM eta) (if i = 0 then d else 0)) b =
      (u + d) * tiN eta b 0 := by
  change (u + d) * tiN eta b 0 + (0 + 0) * tiN eta b 1 = _
  ring

/-- The test function of a cell on both sides of the facet between the columns. -/
theorem ti_facet (eta : Fin 3 → ℝ) (u d : ℝ) (v : TiC → ℝ) : facetDiv (e := tiMesh eta)
    (fun i => cst (tiM eta) (if i = 0 then u else 0) + cst (tiM eta) (if i = 0 then d else 0)) (tiT eta v) TiS.mid =
      (u + d) * (v .west - v .east) := by
  change (1 / 2 * ((u + d) + (u + d))) * (v .west * 1 + v .east * (-1)) +
    (1 / 2 * ((0 + 0) + (0 + 0))) * (v .west * 0 + v .east * 0) +
    (1 / 2 * ((0 + 0) + (0 + 0))) * (v .west * 0 + v .east * 0) = _
  ring

theorem ti_sideLoop (eta : Fin 3 → ℝ) (f : ℕ → TiB → ℝ) (h : ∀ k b, f k b = 0) : (tiMesh eta).sideLoop f = 0 := by
  refine (sideLoop_eq (e := tiMesh eta) f).trans ?_
  change (∑ b : TiB, tiWB eta b * (if tiFace b = .side then f 1 b else 0)) = 0
  exact Finset.sum_eq_zero fun b _ => by rw [h]; simp

theorem ti_solves (eta : Fin 3 → ℝ) (u d : ℝ) (v : TiC → ℝ) :
    Solves (e := tiMesh eta) (fun _ => false) (fun i => cst (tiM eta) (if i = 0 then u else 0) +
      cst (tiM eta) (if i = 0 then d else 0)) (tiGeo.wf eta (tiSolve eta (u + d))) (tiT eta v) := by
  have l1 := (tiLen_pos eta .west).ne'
  have l2 := (tiLen_pos eta .east).ne'
  have hl : wLeft (e := tiMesh eta) (tiGeo.wf eta (tiSolve eta (u + d))) (tiT eta v) =
      tiSolve eta (u + d) .west * v .west + tiSolve eta (u + d) .east * v .east := by
    unfold wLeft
    refine Eq.trans (congrArg₂ _ (congrArg₂ _ (ti_dsurf eta _) (ti_dSh eta _)) (ti_dx eta _)) ?_
    change tiLen eta .west * (newW 1 (tiSolve eta (u + d) .west) 0 * v .west * (1 / tiLen eta .west)) +
      tiLen eta .east * (newW 1 (tiSolve eta (u + d) .east) 0 * v .east * (1 / tiLen eta .east)) + 0 -
        (|tiH eta .west| * (0 * _) + |tiH eta .east| * (0 * _)) = _
    unfold newW
    field_simp
    ring
  set uv : Vc (tiM eta) := fun i => cst (tiM eta) (if i = 0 then u else 0) + cst (tiM eta) (if i = 0 then d else 0)
    with huv
  have hr : wRight (e := tiMesh eta) (fun _ => false) uv (tiT eta v) =
      tiSolve eta (u + d) .west * v .west + tiSolve eta (u + d) .east * v .east := by
    unfold wRight
    refine Eq.trans (congrArg₂ _ (congrArg₂ _ (congrArg₂ _ (congrArg₂ _ (ti_dx eta _) (ti_dSv eta _)) (ti_dSh eta _))
      (ti_dsurf eta _)) (ti_sideLoop eta _ fun _ _ => rfl)) ?_
    have e1 : ∀ c : TiC, ∑ i, (uv i (.cell c)).v * (tiT eta v (.cell c)).g i = 0 := fun c =>
      Finset.sum_eq_zero fun i _ => mul_zero _
    rw [huv, ti_facet, ← huv]
    change (|tiH eta .west| * ∑ i, (uv i (.cell TiC.west)).v * (tiT eta v (.cell TiC.west)).g i) +
      (|tiH eta .east| * ∑ i, (uv i (.cell TiC.east)).v * (tiT eta v (.cell TiC.east)).g i) - _ - 0 -
      (tiLen eta .west * (((u + d) * (-tiSlope eta .west / tiLen eta .west) + (0 + 0) * 0 +
        (0 + 0) * (1 / tiLen eta .west)) * v .west) +
       tiLen eta .east * (((u + d) * (-tiSlope eta .east / tiLen eta .east) + (0 + 0) * 0 +
        (0 + 0) * (1 / tiLen eta .east)) * v .east)) + 0 = _
    rw [e1, e1]
    unfold tiSolve
    field_simp
    ring
  exact hl.trans hr.symm

theorem ti_mass (eta : Fin 3 → ℝ) (he : Wet tiGeo.ref eta) (r : TiC → ℝ) :
    tiGeo.mass eta (fun i => r i / |tiH eta i|) = r := by
  have h1 := abs_pos.2 (ti_wet he .west).ne'
  have h2 := abs_pos.2 (ti_wet he .east).ne'
  funext i
  refine (ti_dx eta _).trans ?_
  change |tiH eta .west| * (r .west / |tiH eta .west| * (Pi.single i 1 : TiC → ℝ) .west) +
    |tiH eta .east| * (r .east / |tiH eta .east| * (Pi.single i 1 : TiC → ℝ) .east) = r i
  cases i <;> simp <;> field_simp

theorem ti_works (T : Type) (swe : ℕ → ℕ → St (Fin 3) ℝ (TiC → ℝ) ℝ ℝ T → ℝ × ℝ) (k : ℝ) :
    Works (tiEnv T swe) (fun _ => 1) k where
  dt := by norm_num [tiEnv]
  vertical := fun eta u d j he => ⟨fun _ => false, ti_solves eta u d (Pi.single j 1), fun n i b _ => rfl⟩
  value := fun n i eta j f hf => by cases hf
  hdg := fun _ => rfl
  vdg := fun _ => rfl
  symm := fun _ => rfl
  mass := fun eta r he => ti_mass eta he r
  source := fun _ _ _ => rfl
  lim := fun _ => rfl

theorem ti_keeps (T : Type) (swe : ℕ → ℕ → St (Fin 3) ℝ (TiC → ℝ) ℝ ℝ T → ℝ × ℝ) : Keeps (tiEnv T swe) where
  hdg := fun _ => rfl
  vdg := fun _ => rfl
  symm := fun _ => rfl
  mass := fun eta r he => ti_mass eta he r
  lim := fun h => by cases h
  diffuse := fun h => by cases h
  noVelocity := fun n i eta j f hf => by cases hf

/-- The tracer equation of the two cells: upwind flow between the columns, and the flow relative to the surface. -/
theorem ti_rhs (T : Type) (swe : ℕ → ℕ → St (Fin 3) ℝ (TiC → ℝ) ℝ ℝ T → ℝ × ℝ) (n i : ℕ)
    (s : St (Fin 3) ℝ (TiC → ℝ) ℝ ℝ T) (u : TiC → ℝ) (hu : 0 < s.uv + s.dav) :
    (tiEnv T swe).rhs n i s u .west = -((s.uv + s.dav) * |s.geo 1 + 1| * u .west) -
      (s.w .west - tiMid s.ws .west - tiSlope s.geo .west * (s.uv + s.dav)) * u .west ∧
    (tiEnv T swe).rhs n i s u .east = (s.uv + s.dav) * |s.geo 1 + 1| * u .west -
      (s.w .east - tiMid s.ws .east - tiSlope s.geo .east * (s.uv + s.dav)) * u .east := by
  have l1 := (tiLen_pos s.geo .west).ne'
  have l2 := (tiLen_pos s.geo .east).ne'
  have key : ∀ v : TiC → ℝ, residual ((tiEnv T swe).term s.geo) ((tiEnv T swe).fields n i s) (fun _ => none)
      (tiT s.geo u) (tiT s.geo v) = -(|s.geo 1 + 1| * (u .west * ((s.uv + s.dav) * (v .west - v .east)))) -
      (s.w .west - tiMid s.ws .west - tiSlope s.geo .west * (s.uv + s.dav)) * u .west * v .west -
      (s.w .east - tiMid s.ws .east - tiSlope s.geo .east * (s.uv + s.dav)) * u .east * v .east := by
    intro v
    have hA : hAdvection ((tiEnv T swe).term s.geo) ((tiEnv T swe).fields n i s) (fun _ => none)
        (tiT s.geo u) (tiT s.geo v) = -(|s.geo 1 + 1| * (u .west * ((s.uv + s.dav) * (v .west - v .east)))) +
        tiSlope s.geo .west * (s.uv + s.dav) * u .west * v .west +
        tiSlope s.geo .east * (s.uv + s.dav) * u .east * v .east := by
      refine Eq.trans (congrArg Neg.neg (congrArg₂ _ (congrArg₂ _ (ti_dx s.geo _) ((if_pos rfl).trans (congrArg₂ _ (congrArg₂ _
        (congrArg₂ _ (ti_dSv s.geo _) (ti_dSh s.geo _)) (if_neg Bool.false_ne_true))
        (ti_sideLoop s.geo _ fun _ _ => rfl)))) ((if_pos rfl).trans (ti_dsurf s.geo _)))) ?_
      set uv : Vc (tiM s.geo) := fun i => cst (tiM s.geo) (if i = 0 then s.uv else 0) +
        cst (tiM s.geo) (if i = 0 then s.dav else 0) with huv
      have e1 : ∀ c : TiC, ∑ i, (uv i (.cell c)).v * (tiT s.geo v (.cell c)).g i = 0 := fun c =>
        Finset.sum_eq_zero fun i _ => mul_zero _
      have hc : cUp (e := tiMesh s.geo) ((tiEnv T swe).term s.geo) (tiT s.geo u) (unAv (e := tiMesh s.geo) uv TiS.mid)
          TiS.mid = u .west := by
        have hn : unAv (e := tiMesh s.geo) uv TiS.mid = -(s.uv + s.dav) := by
          change (1 / 2 * ((s.uv + s.dav) + (s.uv + s.dav))) * (-1) + (1 / 2 * ((0 + 0) + (0 + 0))) * 0 = _
          ring
        rw [hn]
        unfold cUp upwind sgn
        rw [if_neg (by linarith), if_pos (by linarith)]
        change u .east * _ + u .west * _ = _
        ring
      change -(|tiH s.geo .west| * -(u .west * ∑ i, (uv i (.cell TiC.west)).v * (tiT s.geo v (.cell TiC.west)).g i) +
        |tiH s.geo .east| * -(u .east * ∑ i, (uv i (.cell TiC.east)).v * (tiT s.geo v (.cell TiC.east)).g i) +
        (|s.geo 1 + 1| * (cUp (e := tiMesh s.geo) ((tiEnv T swe).term s.geo) (tiT s.geo u)
          (unAv (e := tiMesh s.geo) uv TiS.mid) TiS.mid * facetDiv (e := tiMesh s.geo) uv (tiT s.geo v) TiS.mid) +
          0 + 0 + 0) +
        (tiLen s.geo .west * (u .west * normalH (e := tiMesh s.geo) uv TiB.surfW * v .west) +
         tiLen s.geo .east * (u .east * normalH (e := tiMesh s.geo) uv TiB.surfE * v .east))) = _
      rw [e1, e1, hc, huv, ti_facet, ti_normal, ti_normal]
      simp only [tiN, Matrix.cons_val_zero]
      field_simp
      ring
    have hV : vAdvection ((tiEnv T swe).term s.geo) ((tiEnv T swe).fields n i s)
        (tiT s.geo u) (tiT s.geo v) = -((s.w .west - tiMid s.ws .west) * u .west * v .west) -
        (s.w .east - tiMid s.ws .east) * u .east * v .east := by
      refine Eq.trans (congrArg Neg.neg (congrArg₂ _ (congrArg₂ _ (ti_dx s.geo _) ((if_pos rfl).trans (congrArg₂ _
        (ti_dSh s.geo _) (if_neg Bool.false_ne_true)))) (ti_dsurf s.geo _))) ?_
      change -(|tiH s.geo .west| * -(_ * 0) + |tiH s.geo .east| * -(_ * 0) + (0 + 0) +
        (tiLen s.geo .west * (u .west * (newW 1 (s.w .west) 0 - newW 1 (tiMid s.ws .west) 0) *
          (1 / tiLen s.geo .west) * v .west) +
         tiLen s.geo .east * (u .east * (newW 1 (s.w .east) 0 - newW 1 (tiMid s.ws .east) 0) *
          (1 / tiLen s.geo .east) * v .east))) = _
      unfold newW
      field_simp
      ring
    change _ + _ + 0 + 0 + 0 = _
    rw [hA, hV]
    ring
  constructor
  · refine (key (Pi.single .west 1)).trans ?_
    simp; ring
  · refine (key (Pi.single .east 1)).trans ?_
    simp; ring

/-! ### `CoupledTwoStageRK` -/

/-- The trapezoidal rule for the 2D mode (rungekutta.py:403-407): the first stage changes nothing, in the second the volume
of the eastern column grows by the mean of the old and the new flow times the time step.  The flow is steady. -/
noncomputable def trapezoid {T : Type} (_ i : ℕ) (s : St (Fin 3) ℝ (TiC → ℝ) ℝ ℝ T) : ℝ × ℝ :=
  if i = 0 then (s.elev, s.uv2) else (s.elev + 1 / 10 * (s.uv2 + s.uv2), s.uv2)

/-- A uniform flow to the east, tracer in the west only. -/
def tiState (T : Type) (t : T) : St (Fin 3) ℝ (TiC → ℝ) ℝ ℝ T := ⟨0, 1, 0, 0, 0, 0, 0, 1, 0, t⟩

/-- Tracer in the west only. -/
def tiTr : TiC → ℝ
  | .west => 1
  | .east => 0

theorem ti_amount (eta : Fin 3 → ℝ) (u : TiC → ℝ) :
    amount tiGeo eta u = |tiH eta .west| * u .west + |tiH eta .east| * u .east := ti_dx eta _

theorem ti_after (swe : ℕ → ℕ → StA (Fin 3) ℝ (TiC → ℝ) ℝ ℝ TiC → ℝ × ℝ) (n i : ℕ)
    (t : StA (Fin 3) ℝ (TiC → ℝ) ℝ ℝ TiC) :
    (after (tiEnv _ swe) n i t).uv = 0 ∧ (after (tiEnv _ swe) n i t).dav = t.uv2 ∧
      (after (tiEnv _ swe) n i t).uv2 = t.uv2 ∧
      (after (tiEnv _ swe) n i t).tr.sol = fun c => t.tr.mu c / |tiH ![-t.elev, 0, t.elev] c| := by
  have h : after (tiEnv _ swe) n i t = (tiEnv _ swe).vertical ((tiEnv _ swe).couple ((tiEnv _ swe).momentum n i
      (solveStage (tiEnv _ swe) ((tiEnv _ swe).moveMesh t)))) := by
    unfold after
    have : (tiEnv _ swe).implicit = false := rfl
    simp only [this, Bool.false_eq_true, if_false]
    split <;> rfl
  rw [h]
  exact ⟨sub_self t.uv, rfl, rfl, rfl⟩

/-- The whole volume stays 2, each column has the volume that the flow brings, there is no boundary condition, source or
diffusion: the amount of tracer grows from 1 to 1.005 in the first step. -/
theorem ti_two_stage (mu muOld : TiC → ℝ) :
    amount tiGeo (run (tiEnv _ trapezoid) (tiState _ ⟨tiTr, mu, muOld⟩) 0).geo
      (run (tiEnv _ trapezoid) (tiState _ ⟨tiTr, mu, muOld⟩) 0).tr.sol = 1 ∧
    amount tiGeo (run (tiEnv _ trapezoid) (tiState _ ⟨tiTr, mu, muOld⟩) 1).geo
      (run (tiEnv _ trapezoid) (tiState _ ⟨tiTr, mu, muOld⟩) 1).tr.sol = 201 / 200 := by
  set P := tiEnv (RK.Ale (TiC → ℝ) (TiC → ℝ)) trapezoid with hP
  set s := run P (tiState _ ⟨tiTr, mu, muOld⟩) 0 with hs
  have g0 : s.geo = ![-0, 0, 0] := rfl
  have H0 : ∀ c, tiH ![-0, 0, 0] c = 1 := by intro c; cases c <;> simp [tiH, tiMid]
  have hr : run P (tiState _ ⟨tiTr, mu, muOld⟩) 1 = advance P 0 s := rfl
  have a0 : amount tiGeo s.geo s.tr.sol = 1 := by
    rw [g0, ti_amount, H0, H0]
    change |1| * 1 + |1| * 0 = (1 : ℝ)
    norm_num
  -- first stage
  obtain ⟨b1, b2, b3, b4, b5, b6⟩ := before_same (P := P) 0 0 s
  have bws : (before P 0 0 s).ws = fun _ => 0 := by
    funext h
    change ((![-(0 : ℝ), 0, 0] : Fin 3 → ℝ) h - (![-(0 : ℝ), 0, 0] : Fin 3 → ℝ) h) / (1 / 10) = 0
    simp
  have hw : s.w = tiSolve ![-0, 0, 0] (0 + 1) := rfl
  have hw' : tiSolve ![-0, 0, 0] (0 + 1) .west = -1 ∧ tiSolve ![-0, 0, 0] (0 + 1) .east = 1 := by
    constructor
    · change ((0 : ℝ) - -0) * (0 + 1) - (0 + 1) * |(0 : ℝ) + 1| = -1
      norm_num
    · change ((0 : ℝ) - 0) * (0 + 1) + (0 + 1) * |(0 : ℝ) + 1| = 1
      norm_num
  have e0 := ti_rhs _ trapezoid 0 0 (before P 0 0 s) s.tr.sol (by rw [b3, b4]; change (0 : ℝ) < 0 + 1; norm_num)
  rw [b1, b3, b4, b5, bws, g0, hw, hw'.1, hw'.2] at e0
  have k0 : P.rhs 0 0 (before P 0 0 s) s.tr.sol .west = 0 ∧ P.rhs 0 0 (before P 0 0 s) s.tr.sol .east = 1 := by
    refine ⟨e0.1.trans ?_, e0.2.trans ?_⟩
    · change -((0 + 1) * |(0 : ℝ) + 1| * 1) - (-1 - (0 + 0) / 2 - ((0 : ℝ) - -0) * (0 + 1)) * 1 = 0
      norm_num
    · change (0 + 1) * |(0 : ℝ) + 1| * 1 - (1 - (0 + 0) / 2 - ((0 : ℝ) - 0) * (0 + 1)) * 0 = 1
      norm_num
  -- second stage
  set s1 := stage P 0 0 s with hs1
  have h1 : s1 = after P 0 0 (prepare P 0 0 (before P 0 0 s)) := rfl
  obtain ⟨u1, u2, u3, u4⟩ := ti_after trapezoid 0 0 (prepare P 0 0 (before P 0 0 s))
  rw [← hP, ← h1] at u1 u2 u3 u4
  have f := stage_fields (P := P) 0 0 s
  rw [← hs1] at f
  have g1 : s1.geo = ![-0, 0, 0] := f.1
  have d1 : s1.dav = 1 := u2
  have hw1 : s1.w = tiSolve ![-0, 0, 0] (0 + 1) := by rw [f.2.2.1, g1, u1, d1]; rfl
  have m0 : ∀ c, tiGeo.mass ![-0, 0, 0] tiTr c = tiTr c := by
    intro c
    have := congrFun (ti_mass ![-0, 0, 0] (fun h => by fin_cases h <;> norm_num [tiGeo, tiRef]) tiTr) c
    simp only [H0, abs_one, div_one] at this
    exact this
  have v1 : s1.tr.sol .west = 1 ∧ s1.tr.sol .east = 1 / 10 := by
    have hmu : ∀ c, (prepare P 0 0 (before P 0 0 s)).tr.mu c =
        tiGeo.mass ![-0, 0, 0] tiTr c + 1 / 10 * P.rhs 0 0 (before P 0 0 s) s.tr.sol c := fun c => rfl
    have he : (prepare P 0 0 (before P 0 0 s)).elev = 0 := b6
    rw [u4, he]
    constructor
    · simp only [hmu, H0, m0, k0.1]
      norm_num [tiTr]
    · simp only [hmu, H0, m0, k0.2]
      norm_num [tiTr]
  obtain ⟨c1, c2, c3, c4, c5, c6⟩ := before_same (P := P) 0 1 s1
  have he1 : (P.store 1 s1).elev = 0 := b6
  have he2 : (P.store 1 s1).uv2 = 1 := u3
  have c6' : (before P 0 1 s1).elev = 1 / 5 := by
    rw [c6]
    change (P.store 1 s1).elev + 1 / 10 * ((P.store 1 s1).uv2 + (P.store 1 s1).uv2) = _
    rw [he1, he2]; norm_num
  have cws : (before P 0 1 s1).ws = ![-4, 0, 4] := by
    have x0 : s1.e0 = ![-0, 0, 0] := f.2.2.2.1
    have x1 : P.cg s1.elev = ![-0, 0, 0] := congrArg P.cg (show s1.elev = 0 from b6)
    have : (before P 0 1 s1).ws = fun h => (2 * P.cg (before P 0 1 s1).elev h - P.cg s1.elev h - s1.e0 h) / (1 / 10) := rfl
    rw [this, x0, x1, c6']
    change (fun h => (2 * (![-(1 / 5), 0, 1 / 5] : Fin 3 → ℝ) h - (![-0, 0, 0] : Fin 3 → ℝ) h -
      (![-0, 0, 0] : Fin 3 → ℝ) h) / (1 / 10)) = _
    funext h
    fin_cases h <;> norm_num
  have e1 := ti_rhs _ trapezoid 0 1 (before P 0 1 s1) s1.tr.sol (by rw [c3, c4, u1, d1]; norm_num)
  rw [c1, c3, c4, c5, cws, g1, u1, d1, hw1, hw'.1, hw'.2, v1.1, v1.2] at e1
  have k1 : P.rhs 0 1 (before P 0 1 s1) s1.tr.sol .west = -2 ∧
      P.rhs 0 1 (before P 0 1 s1) s1.tr.sol .east = 11 / 10 := by
    refine ⟨e1.1.trans ?_, e1.2.trans ?_⟩
    · change -((0 + 1) * |(0 : ℝ) + 1| * 1) - (-1 - (-4 + 0) / 2 - ((0 : ℝ) - -0) * (0 + 1)) * 1 = -2
      norm_num
    · change (0 + 1) * |(0 : ℝ) + 1| * 1 - (1 - (0 + 4) / 2 - ((0 : ℝ) - 0) * (0 + 1)) * (1 / 10) = 11 / 10
      norm_num
  have hwet0 : Wet tiGeo.ref s1.geo := by
    rw [g1]; intro h; fin_cases h <;> norm_num [tiGeo, tiRef]
  have hwet1 : Wet tiGeo.ref (advance P 0 s).geo := by
    have : (advance P 0 s).geo = P.cg (before P 0 1 s1).elev := ((stage_fields (P := P) 0 1 s1).1).trans (by rw [c6]; rfl)
    rw [this, c6']
    intro h
    fin_cases h <;> norm_num [tiGeo, tiRef, hP, tiEnv]
  refine ⟨a0, ?_⟩
  rw [hr, (C132_step ti_fits (ti_keeps _ trapezoid) 0 s hwet0 hwet1).2, a0, ← hP, ← hs1,
    ← total_rhs ti_fits (ti_keeps _ trapezoid), ← total_rhs ti_fits (ti_keeps _ trapezoid), total, total, sum_tiC, sum_tiC,
    ← hP, k0.1, k0.2, k1.1, k1.2]
  change 1 + 1 / 10 * _ = (_ : ℝ)
  norm_num

/-! ### `CoupledLeapFrogAM3` -/

/-- One step of the 2D mode with a flow that accelerates by 1: a method of second order gives the new velocity and
elevation without error. -/
noncomputable def accelerated {T : Type} (_ _ : ℕ) (s : St (Fin 3) ℝ (TiC → ℝ) ℝ ℝ T) : ℝ × ℝ :=
  (s.elev + 1 / 10 * (s.uv2 + (s.uv2 + 1 / 10)), s.uv2 + 1 / 10)

/-- The velocity between the time levels, coupled_timeintegrator.py:487-488. -/
noncomputable def tiMix (a b : ℝ) : ℝ := (1 / 2 + 2 * RK.lfγ) * b + (1 / 2 - 2 * RK.lfγ) * a

theorem ti_leap_frog (a b r : TiC → ℝ) (m : (TiC → ℝ) → TiC → ℝ) :
    amount tiGeo (leapRun (tiEnv _ accelerated) tiMix (tiState _ ⟨tiTr, a, b, r, m⟩) 0).geo
      (leapRun (tiEnv _ accelerated) tiMix (tiState _ ⟨tiTr, a, b, r, m⟩) 0).tr.sol = 1 ∧
    amount tiGeo (leapRun (tiEnv _ accelerated) tiMix (tiState _ ⟨tiTr, a, b, r, m⟩) 1).geo
      (leapRun (tiEnv _ accelerated) tiMix (tiState _ ⟨tiTr, a, b, r, m⟩) 1).tr.sol = 7211 / 7200 := by
  set P := tiEnv (RK.Leap (TiC → ℝ) (TiC → ℝ)) accelerated with hP
  set s := leapRun P tiMix (tiState _ ⟨tiTr, a, b, r, m⟩) 0 with hs
  have g0 : s.geo = ![-0, 0, 0] := rfl
  have H0 : ∀ c, tiH ![-0, 0, 0] c = 1 := by intro c; cases c <;> simp [tiH, tiMid]
  have hr : leapRun P tiMix (tiState _ ⟨tiTr, a, b, r, m⟩) 1 = leapAdvance P tiMix 0 s := rfl
  have a0 : amount tiGeo s.geo s.tr.sol = 1 := by
    rw [g0, ti_amount, H0, H0]
    change |1| * 1 + |1| * 0 = (1 : ℝ)
    norm_num
  have m0 : ∀ c, tiGeo.mass ![-0, 0, 0] tiTr c = tiTr c := by
    intro c
    have := congrFun (ti_mass ![-0, 0, 0] (fun h => by fin_cases h <;> norm_num [tiGeo, tiRef]) tiTr) c
    simp only [H0, abs_one, div_one] at this
    exact this
  -- prediction
  have hw' : tiSolve ![-0, 0, 0] (0 + 1) .west = -1 ∧ tiSolve ![-0, 0, 0] (0 + 1) .east = 1 := by
    constructor
    · change ((0 : ℝ) - -0) * (0 + 1) - (0 + 1) * |(0 : ℝ) + 1| = -1
      norm_num
    · change ((0 : ℝ) - 0) * (0 + 1) + (0 + 1) * |(0 : ℝ) + 1| = 1
      norm_num
  have e0 := ti_rhs _ accelerated 0 0 (still P s) tiTr (by change (0 : ℝ) < 0 + 1; norm_num)
  have k0 : P.rhs 0 0 (still P s) tiTr .west = 0 ∧ P.rhs 0 0 (still P s) tiTr .east = 1 := by
    refine ⟨e0.1.trans ?_, e0.2.trans ?_⟩
    · change -((0 + 1) * |(0 : ℝ) + 1| * 1) - (tiSolve ![-0, 0, 0] (0 + 1) .west - (0 + 0) / 2 -
        ((0 : ℝ) - -0) * (0 + 1)) * 1 = 0
      rw [hw'.1]
      norm_num
    · change (0 + 1) * |(0 : ℝ) + 1| * 1 - (tiSolve ![-0, 0, 0] (0 + 1) .east - (0 + 0) / 2 -
        ((0 : ℝ) - 0) * (0 + 1)) * 0 = 1
      norm_num
  set p := predict P 0 (still P s) with hp
  have v : p.tr.sol .west = 1 ∧ p.tr.sol .east = 1 / 12 := by
    have hv : ∀ c, p.tr.sol c = ((1 / 2 - 2 * RK.lfγ) * tiGeo.mass ![-0, 0, 0] tiTr c + (1 / 2 + 2 * RK.lfγ) *
        tiGeo.mass ![-0, 0, 0] tiTr c + (1 - 2 * RK.lfγ) * (1 / 10 * P.rhs 0 0 (still P s) tiTr c)) /
          |tiH ![-0, 0, 0] c| := fun c => rfl
    constructor
    · rw [hv, m0, H0, k0.1]
      norm_num [tiTr, RK.lfγ]
    · rw [hv, m0, H0, k0.2]
      norm_num [tiTr, RK.lfγ]
  -- correction
  set l := leapBefore P tiMix 0 p with hl
  have lg : l.geo = ![-0, 0, 0] := rfl
  have lu : l.uv + l.dav = 16 / 15 := by
    change ((0 : ℝ) - 0) - ((0 : ℝ) - 0) + ((1 / 2 + 2 * RK.lfγ) * (1 + 1 / 10) + (1 / 2 - 2 * RK.lfγ) * 1) = _
    norm_num [RK.lfγ]
  have le : l.elev = 21 / 100 := by
    change (0 : ℝ) + 1 / 10 * (1 + (1 + 1 / 10)) = _
    norm_num
  have lw : l.w = tiSolve ![-0, 0, 0] (16 / 15) := by
    rw [← lu]; rfl
  have lws : l.ws = ![-(21 / 10), 0, 21 / 10] := by
    have : l.ws = fun h => ((![-(0 : ℝ), 0, 0] : Fin 3 → ℝ) h + -(![-l.elev, 0, l.elev] : Fin 3 → ℝ) h) *
      (-1 / (1 / 10) / 1) := rfl
    rw [this, le]
    funext h
    fin_cases h <;> norm_num
  have hw2 : tiSolve ![-0, 0, 0] (16 / 15) .west = -(16 / 15) ∧ tiSolve ![-0, 0, 0] (16 / 15) .east = 16 / 15 := by
    constructor
    · change ((0 : ℝ) - -0) * (16 / 15) - (16 / 15) * |(0 : ℝ) + 1| = -(16 / 15)
      norm_num
    · change ((0 : ℝ) - 0) * (16 / 15) + (16 / 15) * |(0 : ℝ) + 1| = 16 / 15
      norm_num
  have e1 := ti_rhs _ accelerated 0 1 l p.tr.sol (by rw [lu]; norm_num)
  rw [lu, lw, lws, lg, hw2.1, hw2.2, v.1, v.2, ← hP] at e1
  have k1 : P.rhs 0 1 l p.tr.sol .west = -(63 / 60) ∧ P.rhs 0 1 l p.tr.sol .east = 16 / 15 - 1 / 720 := by
    refine ⟨e1.1.trans ?_, e1.2.trans ?_⟩
    · change -((16 / 15) * |(0 : ℝ) + 1| * 1) - (-(16 / 15) - (-(21 / 10) + 0) / 2 -
        ((0 : ℝ) - -0) * (16 / 15)) * 1 = _
      norm_num
    · change (16 / 15) * |(0 : ℝ) + 1| * 1 - (16 / 15 - (0 + 21 / 10) / 2 - ((0 : ℝ) - 0) * (16 / 15)) * (1 / 12) = _
      norm_num
  have hwet : Wet tiGeo.ref (leapAdvance P tiMix 0 s).geo := by
    have : (leapAdvance P tiMix 0 s).geo = P.cg l.elev := rfl
    rw [this, le]
    intro h
    fin_cases h <;> norm_num [tiGeo, tiRef, hP, tiEnv]
  refine ⟨a0, ?_⟩
  rw [hr, C132_leap_step ti_fits (ti_keeps _ accelerated) 0 s hwet, a0, ← hP, ← hp, ← hl,
    ← total_rhs ti_fits (ti_keeps _ accelerated), total, sum_tiC, ← hP, k1.1, k1.2]
  change 1 + 1 / 10 * _ = (_ : ℝ)
  norm_num

/-! ### The property -/

section Closed

variable {H Q ι U W E2 U2 T : Type} [Fintype H] [Fintype Q] [Fintype ι] [DecidableEq ι] [AddCommGroup U]
  {G : Geo H Q ι U W} {base : ι → Q → ℝ} {one : ι → ℝ}

/-- A closed basin: no open boundaries, no sources, no horizontal diffusion. -/
def Closed (P : Env H U W E2 U2 T ι Q G) : Prop :=
  (∀ n i eta k, P.bc n i eta k = none) ∧ ∀ n i s, (P.rest n i s).source = none ∧ (P.rest n i s).diffH = none

/-- Tracer that leaves through the surface, relative to the moving mesh. -/
noncomputable def surfaceLoss (P : Env H U W E2 U2 T ι Q G) (s : St H U W E2 U2 T) (u : ι → ℝ) : ℝ :=
  (G.mesh s.geo).dsurf fun b => (normalH (fun i => G.vel s.geo s.uv i + G.vel s.geo s.dav i) b +
    ((if P.ale then G.wf s.geo s.w - G.wm s.geo s.ws else G.wf s.geo s.w : Sc (G.mesh s.geo).m) (.bnd b)).v *
      (G.mesh s.geo).m.nb b 2) * (G.tr s.geo u (.bnd b)).v

theorem inflow_closed {P : Env H U W E2 U2 T ι Q G} (h : Closed P) (n i : ℕ) (s : St H U W E2 U2 T) (u : ι → ℝ) :
    inflow P n i s u = -surfaceLoss P s u := by
  unfold inflow surfaceLoss hDiffusion
  simp only [h.1, (h.2 n i s).1, (h.2 n i s).2]
  simp [sideLoop_eq, sideOut]

/-- C133: in a closed basin the amount of tracer changes in a step of `CoupledTwoStageRK` by the mean of what leaves
through the surface in the two stages, and by nothing else. -/
theorem C133_two_stage {P : Env H U W E2 U2 (RK.Ale (ι → ℝ) (ι → ℝ)) ι Q G} (hG : Fits G base one) (hP : Keeps P)
    (hc : Closed P) (n : ℕ) (s : StA H U W E2 U2 ι)
    (hw0 : Wet G.ref (stage P n 0 s).geo) (hw1 : Wet G.ref (advance P n s).geo) :
    amount G (advance P n s).geo (advance P n s).tr.sol = amount G s.geo s.tr.sol - P.dt *
      ((surfaceLoss P (before P n 0 s) s.tr.sol +
        surfaceLoss P (before P n 1 (stage P n 0 s)) (stage P n 0 s).tr.sol) / 2) := by
  rw [(C132_step hG hP n s hw0 hw1).2, inflow_closed hc, inflow_closed hc]
  ring

/-- C133: the same for `CoupledLeapFrogAM3`, with the predicted tracer. -/
theorem C133_leap_frog {P : Env H U W E2 U2 (RK.Leap (ι → ℝ) (ι → ℝ)) ι Q G} (hG : Fits G base one) (hP : Keeps P)
    (hc : Closed P) (mix : U2 → U2 → U2) (n : ℕ) (s : StL H U W E2 U2 ι)
    (hw : Wet G.ref (leapAdvance P mix n s).geo) :
    amount G (leapAdvance P mix n s).geo (leapAdvance P mix n s).tr.sol = amount G s.geo s.tr.sol -
      P.dt * surfaceLoss P (leapBefore P mix n (predict P n (still P s))) (predict P n (still P s)).tr.sol := by
  rw [C132_leap_step hG hP n s hw, inflow_closed hc]
  ring

/-- C133: a uniform tracer keeps its amount per volume over a run of `CoupledTwoStageRK`, so in a basin whose volume is
kept the amount is kept too. -/
theorem C133_uniform {P : Env H U W E2 U2 (RK.Ale (ι → ℝ) (ι → ℝ)) ι Q G} {k : ℝ} (hG : Fits G base one)
    (hP : Works P one k) (hD : P.implicit = true → Diffuses P) (s : StA H U W E2 U2 ι) (hs : s.tr.sol = k • one) (n : ℕ)
    (hwet : ∀ m ≤ n, Wet G.ref (run P s m).geo) (hwet1 : ∀ m < n, Wet G.ref (stage P m 0 (run P s m)).geo) :
    amount G (run P s n).geo (run P s n).tr.sol = k * (G.mesh (run P s n).geo).m.dx fun _ => 1 := by
  rw [(C131_two_stage hG hP hD s hs n hwet hwet1).1]
  unfold amount
  rw [hG.one]
  unfold Mesh.dx
  rw [Finset.mul_sum]
  exact Finset.sum_congr rfl fun x _ => by
    change _ * k = _
    ring

end Closed

/-- Volume goes from the western to the eastern column with the mean of the flow at the beginning and at the end. -/
def TiContinuity {T : Type} (P : Env (Fin 3) ℝ (TiC → ℝ) ℝ ℝ T TiC TiC tiGeo) (i : ℕ) : Prop :=
  ∀ n s, let flow := (s.uv2 * (P.cg s.elev 1 + 1) + (P.swe n i s).2 * (P.cg (P.swe n i s).1 1 + 1)) / 2
    tiH (P.cg (P.swe n i s).1) .west = tiH (P.cg s.elev) .west - P.dt * flow ∧
      tiH (P.cg (P.swe n i s).1) .east = tiH (P.cg s.elev) .east + P.dt * flow

theorem ti_closed (T : Type) (swe : ℕ → ℕ → St (Fin 3) ℝ (TiC → ℝ) ℝ ℝ T → ℝ × ℝ) : Closed (tiEnv T swe) :=
  ⟨fun _ _ _ _ => rfl, fun _ _ _ => ⟨rfl, rfl⟩⟩

/-- C133: `CoupledTwoStageRK` does not keep the amount of tracer in a closed basin, even if all solvers are exact and the
2D mode keeps the volume. -/
theorem C133_two_stage_violated : ∃ (swe : ℕ → ℕ → StA (Fin 3) ℝ (TiC → ℝ) ℝ ℝ TiC → ℝ × ℝ)
    (s : StA (Fin 3) ℝ (TiC → ℝ) ℝ ℝ TiC), Fits tiGeo (fun i x => if x = i then 1 else 0) (fun _ => 1) ∧
      (∀ k, Works (tiEnv _ swe) (fun _ => 1) k) ∧ Keeps (tiEnv _ swe) ∧ Closed (tiEnv _ swe) ∧
      (∀ n s, swe n 0 s = (s.elev, s.uv2)) ∧ TiContinuity (tiEnv _ swe) 1 ∧
      amount tiGeo (run (tiEnv _ swe) s 1).geo (run (tiEnv _ swe) s 1).tr.sol ≠
        amount tiGeo (run (tiEnv _ swe) s 0).geo (run (tiEnv _ swe) s 0).tr.sol := by
  refine ⟨trapezoid, tiState _ ⟨tiTr, 0, 0⟩, ti_fits, ti_works _ _, ti_keeps _ _, ti_closed _ _, fun _ _ => rfl,
    fun n s => ?_, ?_⟩
  · change (-(s.elev + 1 / 10 * (s.uv2 + s.uv2)) + 0) / 2 + 1 = (-s.elev + 0) / 2 + 1 -
      1 / 10 * ((s.uv2 * (0 + 1) + s.uv2 * (0 + 1)) / 2) ∧ (0 + (s.elev + 1 / 10 * (s.uv2 + s.uv2))) / 2 + 1 =
      (0 + s.elev) / 2 + 1 + 1 / 10 * ((s.uv2 * (0 + 1) + s.uv2 * (0 + 1)) / 2)
    constructor <;> ring
  · obtain ⟨h0, h1⟩ := ti_two_stage 0 0
    rw [h0, h1]
    norm_num

/-- C133: nor does `CoupledLeapFrogAM3`. -/
theorem C133_leap_frog_violated : ∃ (swe : ℕ → ℕ → StL (Fin 3) ℝ (TiC → ℝ) ℝ ℝ TiC → ℝ × ℝ)
    (s : StL (Fin 3) ℝ (TiC → ℝ) ℝ ℝ TiC), Fits tiGeo (fun i x => if x = i then 1 else 0) (fun _ => 1) ∧
      (∀ k, Works (tiEnv _ swe) (fun _ => 1) k) ∧ Keeps (tiEnv _ swe) ∧ Closed (tiEnv _ swe) ∧
      TiContinuity (tiEnv _ swe) 0 ∧
      amount tiGeo (leapRun (tiEnv _ swe) tiMix s 1).geo (leapRun (tiEnv _ swe) tiMix s 1).tr.sol ≠
        amount tiGeo (leapRun (tiEnv _ swe) tiMix s 0).geo (leapRun (tiEnv _ swe) tiMix s 0).tr.sol := by
  refine ⟨accelerated, tiState _ ⟨tiTr, 0, 0, 0, fun r => r⟩, ti_fits, ti_works _ _, ti_keeps _ _, ti_closed _ _,
    fun n s => ?_, ?_⟩
  · change (-(s.elev + 1 / 10 * (s.uv2 + (s.uv2 + 1 / 10))) + 0) / 2 + 1 = (-s.elev + 0) / 2 + 1 -
      1 / 10 * ((s.uv2 * (0 + 1) + (s.uv2 + 1 / 10) * (0 + 1)) / 2) ∧
      (0 + (s.elev + 1 / 10 * (s.uv2 + (s.uv2 + 1 / 10)))) / 2 + 1 =
      (0 + s.elev) / 2 + 1 + 1 / 10 * ((s.uv2 * (0 + 1) + (s.uv2 + 1 / 10) * (0 + 1)) / 2)
    constructor <;> ring
  · obtain ⟨h0, h1⟩ := ti_leap_frog 0 0 0 fun r => r
    rw [h0, h1]
    norm_num

end Verif.Ale
