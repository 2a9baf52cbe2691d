import Verif.Ale.Props
import Verif.Ext.Tank

/-!
An example for C131: a channel of one column with two layers over a flat bottom at depth 2.  Water flows through it, and
the surface moves.  The tracer is constant in each layer.
-/

namespace Verif.Ale

open Verif.Dg Verif.Ext Verif.Tracer3

/-- Height of a layer: both have height 1 at rest. -/
noncomputable def layer (eta : Unit → ℝ) : ℝ := (eta () + 2) / 2

/-- Areas. -/
noncomputable def chWB (eta : Unit → ℝ) : TkB → ℝ
  | .surf | .bed => 1
  | _ => |layer eta|

/-- Normals. -/
noncomputable def chN : TkB → Fin 3 → ℝ
  | .surf => ![0, 0, 1]
  | .bed => ![0, 0, -1]
  | .left0 | .left1 => ![-1, 0, 0]
  | .right0 | .right1 => ![1, 0, 0]
  | .front0 | .front1 => ![0, -1, 0]
  | .back0 | .back1 => ![0, 1, 0]

/-- The channel as a mesh. -/
noncomputable def chM (eta : Unit → ℝ) : Mesh 3 where
  C := TkC
  S := TkS
  B := TkB
  wC := fun _ => |layer eta|
  wS := fun _ => 1
  wB := chWB eta
  np := fun _ => ![0, 0, 1]
  nm := fun _ => ![0, 0, -1]
  nb := chN
  marker := tkMarker
  markers := [1, 2, 3, 4]
  volP := fun _ => 1
  volM := fun _ => 1
  volB := fun _ => 1
  areaS := fun _ => 1
  areaB := chWB eta
  wC_nonneg := fun _ => abs_nonneg _
  wS_nonneg := fun _ => by norm_num
  wB_nonneg := fun b => by cases b <;> simp only [chWB] <;> positivity
  markers_nodup := by decide
  marker_mem := by intro b; cases b <;> decide

/-- The extruded mesh. -/
noncomputable def chMesh (eta : Unit → ℝ) : Mesh3 := ⟨chM eta, fun _ => true, tkFace⟩

/-- The layer of a point. -/
def chCell {eta : Unit → ℝ} : Pt (chM eta) → TkC
  | .cell c => c
  | .plus _ => .lo
  | .minus _ => .up
  | .bnd b => match b with
    | TkB.bed | TkB.left0 | TkB.right0 | TkB.front0 | TkB.back0 => .lo
    | _ => .up

/-- The height of a point in the mesh at rest. -/
noncomputable def chZ {eta : Unit → ℝ} : Pt (chM eta) → ℝ
  | .cell c => match c with
    | TkC.lo => -(3 / 2)
    | TkC.up => -(1 / 2)
  | .plus _ => -1
  | .minus _ => -1
  | .bnd b => match b with
    | TkB.surf => 0
    | TkB.bed => -2
    | TkB.left0 | TkB.right0 | TkB.front0 | TkB.back0 => -(3 / 2)
    | _ => -(1 / 2)

/-- The channel at rest. -/
noncomputable def chRef : Ref Unit TkC where
  bath := fun _ => 2
  wq := fun _ => 1
  phi := fun _ _ => 1
  lo := fun c _ => match c with
    | .lo => -2
    | .up => -1
  hi := fun c _ => match c with
    | .lo => -1
    | .up => 0

/-- A tracer that is constant in each layer. -/
def chT (eta : Unit → ℝ) (u : TkC → ℝ) : Sc (chM eta) := fun p => Jet.const (u (chCell p))

/-- The mesh velocity. -/
noncomputable def chW (eta ws : Unit → ℝ) : Sc (chM eta) := fun p =>
  ⟨newW 2 (ws ()) (chZ p), ![0, 0, ws () / 2 / layer eta]⟩

/-- The channel with its functions; velocities are uniform. -/
noncomputable def chGeo : Geo Unit TkC TkC ℝ Unit where
  ref := chRef
  mesh := chMesh
  pt := fun _ => Equiv.refl TkC
  tr := chT
  vel := fun eta u i => cst (chM eta) (if i = 0 then u else 0)
  wf := fun eta _ => cst (chM eta) 0
  wm := chW

theorem ch_jac (eta : Unit → ℝ) (x : TkC) : chRef.jac eta x = layer eta := by
  cases x <;> simp [Ref.jac, chRef, newZ, layer] <;> ring

theorem ch_rate (ws : Unit → ℝ) (x : TkC) : chRef.rate ws x = ws () / 2 := by
  cases x <;> simp [Ref.rate, chRef, newW] <;> ring

theorem ch_wet {eta : Unit → ℝ} (h : Wet chRef eta) : 0 < layer eta := by
  have := h ()
  simp only [chRef] at this
  unfold layer
  positivity

theorem ch_exact (eta ws : Unit → ℝ) (u : TkC → ℝ) (hl : 0 < layer eta) :
    DivExact (chM eta) fun j => chT eta u * if j = 2 then chW eta ws else cst (chM eta) 0 := by
  have hg : ∀ c : TkC, div (fun j : Fin 3 => chT eta u * if j = 2 then chW eta ws else cst (chM eta) 0)
      (.cell c) = u c * (ws () / 2 / layer eta) := by
    intro c
    unfold div
    rw [Fin.sum_univ_three]
    change (0 * 0 + u c * 0) + (0 * 0 + u c * 0) + (0 * _ + u c * (ws () / 2 / layer eta)) = _
    ring
  have hv : ∀ p : Pt (chM eta), ((chT eta u * chW eta ws) p).v = u (chCell p) * newW 2 (ws ()) (chZ p) := fun _ => rfl
  have h0 : ∀ p : Pt (chM eta), ((chT eta u * cst (chM eta) 0) p).v = 0 := fun p => mul_zero (u (chCell p))
  unfold DivExact
  change (∑ c : TkC, |layer eta| * div (m := chM eta) _ (.cell c)) = (∑ s : TkS, 1 * jumpV (m := chM eta) _ s) + ∑ b : TkB, chWB eta b * normalAt (m := chM eta) _ b
  rw [sum_tkC, sum_tkS, sum_tkB, hg, hg]
  unfold jumpV normalAt
  simp only [Fin.sum_univ_three]
  change _ = 1 * ((((chT eta u * cst (chM eta) 0) _).v * 0 + ((chT eta u * cst (chM eta) 0) _).v * 0 +
      ((chT eta u * chW eta ws) _).v * 1) + (((chT eta u * cst (chM eta) 0) _).v * 0 +
      ((chT eta u * cst (chM eta) 0) _).v * 0 + ((chT eta u * chW eta ws) _).v * (-1))) +
    (chWB eta .surf * (((chT eta u * cst (chM eta) 0) _).v * chN .surf 0 +
      ((chT eta u * cst (chM eta) 0) _).v * chN .surf 1 + ((chT eta u * chW eta ws) _).v * chN .surf 2) +
    chWB eta .bed * (((chT eta u * cst (chM eta) 0) _).v * chN .bed 0 +
      ((chT eta u * cst (chM eta) 0) _).v * chN .bed 1 + ((chT eta u * chW eta ws) _).v * chN .bed 2) +
    chWB eta .left0 * (((chT eta u * cst (chM eta) 0) _).v * chN .left0 0 +
      ((chT eta u * cst (chM eta) 0) _).v * chN .left0 1 + ((chT eta u * chW eta ws) _).v * chN .left0 2) +
    chWB eta .left1 * (((chT eta u * cst (chM eta) 0) _).v * chN .left1 0 +
      ((chT eta u * cst (chM eta) 0) _).v * chN .left1 1 + ((chT eta u * chW eta ws) _).v * chN .left1 2) +
    chWB eta .right0 * (((chT eta u * cst (chM eta) 0) _).v * chN .right0 0 +
      ((chT eta u * cst (chM eta) 0) _).v * chN .right0 1 + ((chT eta u * chW eta ws) _).v * chN .right0 2) +
    chWB eta .right1 * (((chT eta u * cst (chM eta) 0) _).v * chN .right1 0 +
      ((chT eta u * cst (chM eta) 0) _).v * chN .right1 1 + ((chT eta u * chW eta ws) _).v * chN .right1 2) +
    chWB eta .front0 * (((chT eta u * cst (chM eta) 0) _).v * chN .front0 0 +
      ((chT eta u * cst (chM eta) 0) _).v * chN .front0 1 + ((chT eta u * chW eta ws) _).v * chN .front0 2) +
    chWB eta .front1 * (((chT eta u * cst (chM eta) 0) _).v * chN .front1 0 +
      ((chT eta u * cst (chM eta) 0) _).v * chN .front1 1 + ((chT eta u * chW eta ws) _).v * chN .front1 2) +
    chWB eta .back0 * (((chT eta u * cst (chM eta) 0) _).v * chN .back0 0 +
      ((chT eta u * cst (chM eta) 0) _).v * chN .back0 1 + ((chT eta u * chW eta ws) _).v * chN .back0 2) +
    chWB eta .back1 * (((chT eta u * cst (chM eta) 0) _).v * chN .back1 0 +
      ((chT eta u * cst (chM eta) 0) _).v * chN .back1 1 + ((chT eta u * chW eta ws) _).v * chN .back1 2))
  simp only [hv, h0, chN, chWB, chZ, chCell, abs_of_pos hl, newW, Matrix.cons_val_zero, Matrix.cons_val_one,
    Matrix.cons_val_two, Matrix.tail_cons, Matrix.head_cons]
  have := hl.ne'
  field_simp
  ring

theorem ch_fits : Fits chGeo (fun i x => if x = i then 1 else 0) (fun _ => 1) where
  ref := by
    refine ⟨fun _ => ?_, fun _ => ?_, fun _ _ => ?_, fun _ => ⟨(), ?_⟩, fun x _ => ?_⟩
    · change (0 : ℝ) < 2; norm_num
    · change (0 : ℝ) < 1; norm_num
    · change (0 : ℝ) ≤ 1; norm_num
    · change (0 : ℝ) < 1; norm_num
    · cases x <;> norm_num [chGeo, chRef]
  weight := fun eta x => by
    change TkC at x
    have := ch_jac eta x
    change |layer eta| = 1 * |chRef.jac eta _|
    rw [one_mul]
    exact congrArg _ this.symm
  value := fun eta u x => by
    change TkC at x
    change u x = ∑ i, u i * if x = i then 1 else 0
    rw [sum_tkC]
    cases x <;> simp
  one := fun eta k => by
    funext p
    change Jet.const (k * 1) = Jet.const k
    rw [mul_one]
  lin := fun eta a b c => by
    funext p
    apply Jet.ext
    · rfl
    · funext i
      change 0 = 0 + (0 * _ + b * 0)
      ring
  independent := fun u h => by
    funext x
    have := h x
    rw [sum_tkC] at this
    cases x <;> simpa using this
  slope := fun eta ws x he => by
    change TkC at x
    change ws () / 2 / layer eta * chRef.jac eta x = chRef.rate ws x
    rw [ch_jac, ch_rate]
    have := (ch_wet he).ne'
    field_simp
  cont := fun eta ws s _ => rfl
  bed := fun eta ws b => by
    change tkFace b = .bottom → newW 2 (ws ()) (chZ (eta := eta) (.bnd b)) = 0
    cases b <;> simp [tkFace, chZ, newW]
  flat := fun eta s i => by
    change (![0, 0, -1] : Fin 3 → ℝ) i = -(![0, 0, 1] : Fin 3 → ℝ) i
    fin_cases i <;> simp
  vert := fun eta s h => by cases h
  side := fun eta b => by
    change tkFace b = .side → chN b 2 = 0
    cases b <;> simp [tkFace, chN]
  exact := fun eta ws i he => ch_exact eta ws (Pi.single i 1) (ch_wet he)
  hor := fun eta u b _ => rfl

/-- A solver for the channel.  The surface moves by an arbitrary amount in each stage, the flow accelerates. -/
noncomputable def chEnv (T : Type) (ale limit implicit : Bool) (k : ℝ) : Env Unit ℝ Unit ℝ ℝ T TkC TkC chGeo where
  dt := 1 / 2
  ale := ale
  limit := limit
  implicit := implicit
  cg := fun e _ => e ^ 2 - 1
  average := fun _ u => u
  copy := fun u => u
  wSolve := fun _ _ => ()
  massSolve := fun eta r i => r i / |layer eta|
  lim := fun _ u => u
  diffuse := fun _ _ u => u
  swe := fun n i s => (s.elev + n - i, s.uv2 + 1)
  mom := fun _ _ s => s.uv + s.w.rec 1
  term := fun _ => ⟨true, true, true, true, 5, cst _ 5, 1, 1, true, 0⟩
  bc := fun _ _ _ j => if j == 1 || j == 2 then some { value := some fun _ => k } else none
  rest := fun _ _ _ => ⟨none, none, cst _ 0, none, none, 1, some (cst _ 1), some (cst _ 1), none⟩

theorem ch_dx (eta : Unit → ℝ) (f : TkC → ℝ) : (chMesh eta).m.dx f = |layer eta| * f .lo + |layer eta| * f .up := by
  have : (chMesh eta).m.dx f = ∑ c : TkC, |layer eta| * f c := rfl
  rw [this, sum_tkC]

theorem ch_dSh (eta : Unit → ℝ) (f : TkS → ℝ) : (chMesh eta).dSh f = f .mid := by
  have : (chMesh eta).dSh f = ∑ c : TkS, 1 * (if true = true then f c else 0) := rfl
  rw [this, sum_tkS]; simp

theorem ch_dSv (eta : Unit → ℝ) (f : TkS → ℝ) : (chMesh eta).dSv f = 0 := by
  have : (chMesh eta).dSv f = ∑ c : TkS, 1 * (if true = true then 0 else f c) := rfl
  rw [this, sum_tkS]; simp

theorem ch_dsurf (eta : Unit → ℝ) (f : TkB → ℝ) : (chMesh eta).dsurf f = f .surf := by
  have : (chMesh eta).dsurf f = ∑ b : TkB, chWB eta b * (if tkFace b = .surf then f b else 0) := rfl
  rw [this, sum_tkB]; simp [chWB, tkFace]

theorem ch_sideLoop (eta : Unit → ℝ) (f : ℕ → TkB → ℝ) : (chMesh eta).sideLoop f = |layer eta| * (f 1 .left0 + f 1 .left1 +
    f 2 .right0 + f 2 .right1 + f 3 .front0 + f 3 .front1 + f 4 .back0 + f 4 .back1) := by
  refine (sideLoop_eq (e := chMesh eta) f).trans ?_
  change (∑ b : TkB, chWB eta b * (if tkFace b = .side then f (tkMarker b) b else 0)) = _
  rw [sum_tkB]; simp [chWB, tkFace, tkMarker]; ring

theorem ch_solves (eta : Unit → ℝ) (u d : ℝ) (v : TkC → ℝ) :
    Solves (e := chMesh eta) (fun k => k == 1 || k == 2) (fun i => cst (chM eta) (if i = 0 then u else 0) +
      cst (chM eta) (if i = 0 then d else 0)) (cst (chM eta) 0) (chT eta v) := by
  have hl : wLeft (e := chMesh eta) (cst (chM eta) 0) (chT eta v) = 0 := by
    unfold wLeft
    refine Eq.trans (congrArg₂ _ (congrArg₂ _ (ch_dsurf eta _) (ch_dSh eta _)) (ch_dx eta _)) ?_
    change 0 * v .up * 1 + (1 / 2 * (0 + 0)) * _ - (|layer eta| * (0 * 0) + |layer eta| * (0 * 0)) = (0 : ℝ)
    ring
  set uv : Vc (chM eta) := fun i => cst (chM eta) (if i = 0 then u else 0) + cst (chM eta) (if i = 0 then d else 0)
    with huv
  have h0 : ∀ p, (uv 0 p).v = u + d := fun _ => rfl
  have h1 : ∀ p, (uv 1 p).v = 0 := fun _ => add_zero 0
  have h2 : ∀ p, (uv 2 p).v = 0 := fun _ => add_zero 0
  have hr : wRight (e := chMesh eta) (fun k => k == 1 || k == 2) uv (chT eta v) = 0 := by
    unfold wRight
    refine Eq.trans (congrArg₂ _ (congrArg₂ _ (congrArg₂ _ (congrArg₂ _ (ch_dx eta _) (ch_dSv eta _)) (ch_dSh eta _))
      (ch_dsurf eta _)) (ch_sideLoop eta _)) ?_
    have e1 : ∀ c : TkC, ∑ i, (uv i (.cell c)).v * (chT eta v (.cell c)).g i = 0 := fun c =>
      Finset.sum_eq_zero fun i _ => mul_zero _
    have e2 : facetDiv (e := chMesh eta) uv (chT eta v) TkS.mid = 0 := by
      have j0 : jumpN (m := chM eta) (chT eta v) TkS.mid 0 = 0 := by
        change v .lo * 0 + v .up * 0 = (0 : ℝ); ring
      have a1 : avg (m := chM eta) (uv 1) TkS.mid = 0 := by
        unfold avg; rw [h1, h1]; ring
      have a2 : avg (m := chM eta) (uv 2) TkS.mid = 0 := by
        unfold avg; rw [h2, h2]; ring
      change avg (m := chM eta) (uv 0) TkS.mid * jumpN (m := chM eta) (chT eta v) TkS.mid 0 +
        avg (m := chM eta) (uv 1) TkS.mid * _ + avg (m := chM eta) (uv 2) TkS.mid * _ = 0
      rw [j0, a1, a2]; ring
    have e3 : ∀ b : TkB, normalH (e := chMesh eta) uv b = (u + d) * chN b 0 := by
      intro b
      change (uv 0 (.bnd b)).v * chN b 0 + (uv 1 (.bnd b)).v * chN b 1 = _
      rw [h0, h1]; ring
    rw [e2]
    simp only [e3]
    change (|layer eta| * ∑ i, (uv i (.cell TkC.lo)).v * (chT eta v (.cell TkC.lo)).g i) +
      (|layer eta| * ∑ i, (uv i (.cell TkC.up)).v * (chT eta v (.cell TkC.up)).g i) - 0 - 0 -
      ((uv 0 (.bnd TkB.surf)).v * 0 + (uv 1 (.bnd TkB.surf)).v * 0 + (uv 2 (.bnd TkB.surf)).v * 1) * _ +
      |layer eta| * (-((u + d) * (-1) * v .lo) + -((u + d) * (-1) * v .up) + -((u + d) * 1 * v .lo) +
        -((u + d) * 1 * v .up) + 0 + 0 + 0 + 0) = 0
    rw [e1, e1, h2]
    ring
  exact hl.trans hr.symm

theorem ch_works (T : Type) (ale limit implicit : Bool) (k : ℝ) : Works (chEnv T ale limit implicit k) (fun _ => 1) k where
  dt := by norm_num [chEnv]
  vertical := fun eta u d j he => by
    refine ⟨fun k => k == 1 || k == 2, ?_, fun n i b _ => ?_⟩
    · exact ch_solves eta u d (Pi.single j 1)
    · change (if (_ == 1 || _ == 2) = true then _ else _ : Option _).isSome = _
      split <;> simp_all
  value := fun n i eta j f hf v hv b => by
    change (if (j == 1 || j == 2) = true then some _ else none) = some f at hf
    split at hf
    · simp only [Option.some.injEq] at hf
      subst hf
      simp only [Option.some.injEq] at hv
      subst hv; rfl
    · cases hf
  hdg := fun _ => rfl
  vdg := fun _ => rfl
  symm := fun _ => rfl
  mass := fun eta r he => by
    have hl := ch_wet he
    funext i
    refine (ch_dx eta _).trans ?_
    change |layer eta| * (r .lo / |layer eta| * (Pi.single i 1 : TkC → ℝ) .lo) +
      |layer eta| * (r .up / |layer eta| * (Pi.single i 1 : TkC → ℝ) .up) = r i
    rw [abs_of_pos hl]
    cases i <;> simp <;> field_simp
  source := fun _ _ _ => rfl
  lim := fun _ => rfl

theorem ch_cg_wet {geo : Unit → ℝ} {e : ℝ} (h : geo = fun _ => e ^ 2 - 1) : Wet chGeo.ref geo := by
  have h2 : ∀ a : ℝ, 0 < a ^ 2 - 1 + 2 := fun a => by nlinarith [sq_nonneg a]
  intro _
  rw [h]
  exact h2 _

theorem ch_diffuses (T : Type) (ale limit implicit : Bool) (k : ℝ) : Diffuses (chEnv T ale limit implicit k) := by
  intro n s u _
  refine ⟨⟨none, none, cst _ 0, none, none, 1, none, none, none⟩, 0, ⟨?_, ?_⟩, ?_⟩
  · change u = u + _
    rw [smul_zero, add_zero]
  · intro j
    refine (ch_dx s.geo _).trans ?_
    change _ * (0 * _) + _ * (0 * _) = (0 : ℝ)
    simp
  · intro c
    exact (Finset.sum_eq_zero fun j _ => mul_zero _).le

/-- The state at the beginning. -/
def chState (T : Type) (t : T) : St Unit ℝ Unit ℝ ℝ T := ⟨2, 1, 0, 0, 0, 0, 0, 0, (), t⟩

/-- Salinity 35 stays 35 over any number of steps on the moving mesh, with both integrators. -/
example (limit implicit : Bool) (n : ℕ) :
    (run (chEnv _ true limit implicit 35) (chState _ ⟨fun _ => 35, 0, 0⟩) n).tr.sol = fun _ => 35 := by
  have h := C131_two_stage ch_fits (ch_works _ true limit implicit 35) (fun _ => ch_diffuses _ true limit implicit 35)
    (chState _ ⟨fun _ => 35, 0, 0⟩) (by funext x; norm_num [chState]) n
    (fun m _ => by
      cases m with
      | zero => exact ch_cg_wet rfl
      | succ m => exact ch_cg_wet ((stage_fields _ 1 _).2.1 rfl))
    (fun m _ => ch_cg_wet ((stage_fields m 0 _).2.1 rfl))
  rw [h.1]; funext x; norm_num

example (limit implicit : Bool) (n : ℕ) (r : TkC → ℝ) :
    (leapRun (chEnv _ true limit implicit 35) (fun a b => b * (2 / 3) + a * (1 / 3))
      (chState _ ⟨fun _ => 35, 0, 0, r, fun _ => 0⟩) n).tr.sol = fun _ => 35 := by
  have h := C131_leap_frog (mix := fun a b => b * (2 / 3) + a * (1 / 3)) ch_fits (ch_works _ true limit implicit 35)
    (fun _ => ch_diffuses _ true limit implicit 35)
    (chState _ ⟨fun _ => 35, 0, 0, r, fun _ => 0⟩) (by funext x; norm_num [chState]) n
    (fun m _ => by
      cases m with
      | zero => exact ch_cg_wet rfl
      | succ m => exact ch_cg_wet ((leapAfter_fields m _).1.trans rfl))
  rw [h.1]; funext x; norm_num

/-- The mesh does move: the surface is at 3 at the start and at 0 after the first step. -/
example (t : RK.Ale (TkC → ℝ) (TkC → ℝ)) :
    (run (chEnv _ true true true 35) (chState _ t) 0).geo () = 3 ∧
      (run (chEnv _ true true true 35) (chState _ t) 1).geo () = 0 := by
  constructor
  · norm_num [run, start, Env.vertical, Env.moveMesh, chEnv, chState]
  · set P := chEnv (RK.Ale (TkC → ℝ) (TkC → ℝ)) true true true 35 with hP
    have h := (stage_fields (P := P) 0 1 (stage P 0 0 (run P (chState _ t) 0))).1
    have h2 : (stage P 0 0 (run P (chState _ t) 0)).elev = 2 := by
      rw [stage_eq, (after_fields (P := P) 0 0 _).2.1]
      change (before P 0 0 (run P (chState _ t) 0)).elev = 2
      rw [(before_same (P := P) 0 0 _).2.2.2.2.2]
      norm_num [hP, chEnv, Env.store, run, start, Env.vertical, Env.moveMesh, chState]
    have h3 : (P.store 1 (stage P 0 0 (run P (chState _ t) 0))).elev = 2 := h2
    refine (congrFun h ()).trans ?_
    change ((P.store 1 (stage P 0 0 (run P (chState _ t) 0))).elev + (0 : ℕ) - (1 : ℕ)) ^ 2 - 1 = (0 : ℝ)
    rw [h3]; norm_num

end Verif.Ale
