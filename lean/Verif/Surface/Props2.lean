import Verif.Surface.Props

/-!
C146: examples, and a wrong elevation behind an open boundary.
-/

namespace Verif.Surface

open Finset Verif.Dg Verif.Contract Verif.Solve

/-! ### A basin on the square -/

instance : FiniteDimensional ℝ linears :=
  FiniteDimensional.of_injective
    ({ toFun := fun f x => (f.1 (.cell x)).v, map_add' := fun _ _ => rfl, map_smul' := fun _ _ => rfl } : linears →ₗ[ℝ] square.C → ℝ)
    ((injective_iff_map_eq_zero _).2 fun f h => Subtype.ext (linears_ext f.1 f.2 fun x => congrFun h x))

/-- Nonlinear equations in a closed basin, linearised around the old solution: the conditions of the theorems hold. -/
example (old : State square) (u : Vc square) : ∃! eta, FsStep { Swe.exTerm with nonlinear := true, depth := ⟨cst square 10, true, false, cst square 0⟩ }
    exCoeffs exCoeffs (fun _ => none) 3600 (1 / 2) true linears old u eta :=
  C146_unique_closed _ _ _ (Or.inl rfl) rfl (show (0 : ℝ) ≤ 10 by norm_num) (fun _ _ h => by cases h) (fun c => show (0 : ℝ) < 1 / 6 by norm_num)
    (fun c hc h => linears_ext c hc h) _ (by norm_num) (by norm_num) old u

/-- There a step without correction is the step of the shallow water equations. -/
example (old new : State square) : let T := { Swe.exTerm with nonlinear := true, depth := ⟨cst square 10, true, false, cst square 0⟩ }
    NhStep (ThetaStep (swe T exCoeffs fun _ => none) (swe T exCoeffs fun _ => none) 3600 (1 / 2) true
      ((Submodule.pi Set.univ fun _ => linears).prod linears)) (fun mid u => u = mid.1) T exCoeffs exCoeffs (fun _ => none) 3600 (1 / 2) true
      linears old new ↔
    ThetaStep (swe T exCoeffs fun _ => none) (swe T exCoeffs fun _ => none) 3600 (1 / 2) true
      ((Submodule.pi Set.univ fun _ => linears).prod linears) old new :=
  C146_hydrostatic_partial _ _ _ (Or.inr (Or.inl fun _ _ _ h => by cases h)) (fun u =>
    C146_unique_closed _ _ _ (Or.inl rfl) rfl (show (0 : ℝ) ≤ 10 by norm_num) (fun _ _ h => by cases h)
      (fun c => show (0 : ℝ) < 1 / 6 by norm_num) (fun c hc h => linears_ext c hc h) _ (by norm_num) (by norm_num) old u) new

/-! ### One cell -/

/-- The unit square as one cell, with one point in it and one on each side; the right side has the id 2. -/
def box : Mesh 2 where
  C := Unit
  S := Empty
  B := Fin 4
  wC := fun _ => 1
  wS := fun _ => 1
  wB := fun _ => 1
  np := fun _ _ => 0
  nm := fun _ _ => 0
  nb := ![![-1, 0], ![1, 0], ![0, -1], ![0, 1]]
  marker := ![1, 2, 3, 4]
  markers := [1, 2, 3, 4]
  volP := fun _ => 1
  volM := fun _ => 1
  volB := fun _ => 1
  areaS := fun _ => 1
  areaB := fun _ => 1
  wC_nonneg := fun _ => by norm_num
  wS_nonneg := fun _ => by norm_num
  wB_nonneg := fun _ => by norm_num
  markers_nodup := by decide
  marker_mem := by decide

/-- Nonlinear equations over water of depth 10, with discontinuous spaces. -/
noncomputable def boxTerm : Swe.Term box where
  depth := ⟨cst box 10, true, false, cst box 0⟩
  g := 10
  rho0 := 1000
  uDg := true
  etaDg := true
  blen := fun _ => 1
  nonlinear := true
  lf := true
  lfFactor := 1
  sipg := cst box 1
  p := 0
  triangle := false
  gradDiv := false
  gradDepth := false
  smoother := 0

/-- A uniform flow to the right. -/
def flow (a : ℝ) : Vc box := fun i => cst box (if i = 0 then a else 0)

/-- A force to the right. -/
noncomputable def boxCoeffs : Swe.Coeffs box := { Swe.noCoeffs with source := some (flow (256 / 11)) }

/-- The water outside the right side rests. -/
def boxBc : ℕ → Option (Swe.Funcs box) := fun k => if k = 2 then some [.elev fun _ => 0, .uv fun _ _ => 0] else none

/-- Uniform flows to the right. -/
def flows : Submodule ℝ (Vc box) where
  carrier := {u | ∃ a, u = flow a}
  zero_mem' := ⟨0, by funext i x; simp [flow, cst]; rfl⟩
  add_mem' := by
    rintro _ _ ⟨a, rfl⟩ ⟨b, rfl⟩
    refine ⟨a + b, funext fun i => funext fun x => ?_⟩
    ext <;> fin_cases i <;> simp [flow, cst]
  smul_mem' := by
    rintro c _ ⟨a, rfl⟩
    refine ⟨c * a, funext fun i => funext fun x => ?_⟩
    ext
    · change c * (flow a i x).v = (flow (c * a) i x).v
      simp [flow]
    · change c * (flow a i x).g _ = (flow (c * a) i x).g _
      simp [flow]

/-- Flat surfaces. -/
def levels : Submodule ℝ (Sc box) where
  carrier := {u | ∃ a, u = cst box a}
  zero_mem' := ⟨0, rfl⟩
  add_mem' := by
    rintro _ _ ⟨a, rfl⟩ ⟨b, rfl⟩
    refine ⟨a + b, funext fun x => ?_⟩
    ext <;> simp [cst]
  smul_mem' := by
    rintro c _ ⟨a, rfl⟩
    refine ⟨c * a, funext fun x => ?_⟩
    ext
    · rfl
    · change c * (cst box a x).g _ = (cst box (c * a) x).g _
      simp

theorem box_open : Swe.openFuncs (boxBc 2) = some [.elev fun _ => 0, .uv fun _ _ => 0] := rfl

theorem box_closed (k : ℕ) (h : k ≠ 2) : Swe.openFuncs (boxBc k) = none := by
  simp [boxBc, h, Swe.openFuncs, Swe.imposeDynamic]

theorem box_depth (e : ℝ) (p : Pt box) : Swe.depthAt boxTerm p e = 10 + e := by
  simp [Swe.depthAt, Depth.total, Depth.displacement, boxTerm]

theorem box_total (e : ℝ) (p : Pt box) : (Swe.totalH boxTerm (cst box e) p).v = 10 + e := by
  simp [Swe.totalH, Depth.total, Depth.displacement, boxTerm]

theorem box_closed' (b : Fin 4) (h : b ≠ 1) : Swe.openFuncs (boxBc (box.marker b)) = none :=
  box_closed _ (by
    have key : ∀ b : Fin 4, b ≠ 1 → (![1, 2, 3, 4] : Fin 4 → ℕ) b ≠ 2 := by decide
    exact key b h)

theorem box_flux (u e v : ℝ) (b : box.B) : Swe.volFlux boxTerm boxBc (flow u) (cst box e) (flow v) (cst box 0) (box.marker b) b =
    if (show Fin 4 from b) = 1 then (10 + v) * (u / 2 + e) else 0 := by
  unfold Swe.volFlux
  by_cases hb : (show Fin 4 from b) = 1
  · obtain rfl : b = (show box.B from (1 : Fin 4)) := hb
    have h : Swe.openFuncs (boxBc (box.marker (show box.B from (1 : Fin 4)))) = some [.elev fun _ => 0, .uv fun _ _ => 0] := rfl
    rw [h]
    simp only [Swe.fluxOpen, box_depth, box_total, Swe.bndF, Swe.bndFunctions, Swe.Funcs.elev, Swe.Funcs.uv, Fin.sum_univ_two, Swe.atB,
      List.findSome?, Option.getD_some]
    have e1 : (1 / 2 : ℝ) * (10 + 0 + (10 + 0)) = 10 := by norm_num
    have e2 : boxTerm.g = 10 := rfl
    rw [e1, e2, div_self (by norm_num : (10 : ℝ) ≠ 0), Real.sqrt_one]
    simp [flow, box]
    exact Or.inl (by ring)
  · rw [box_closed' b hb, if_neg hb]

theorem box_continuity (u e v c : ℝ) : Swe.continuity boxTerm boxCoeffs boxBc (flow u) (cst box e) (flow v) (cst box 0) (cst box c) =
    -((10 + v) * (u / 2 + e) * c) := by
  have h0 : ∀ f : box.S → ℝ, box.dS f = 0 := fun f => Finset.sum_eq_zero fun s _ => s.elim
  have hu : boxTerm.uDg = true := rfl
  simp only [Swe.continuity, Swe.huDiv, bndLoop_eq, box_flux, h0, hu, if_true, ite_self]
  change -(box.dx _ + 0 + ∑ b : Fin 4, (1 : ℝ) * ((if b = 1 then (10 + v) * (u / 2 + e) else 0) * c)) + 0 = _
  simp [Mesh.dx]

theorem box_dx (f : box.C → ℝ) : box.dx f = f () := by
  change ∑ c : Unit, (1 : ℝ) * f c = f ()
  rw [Fintype.sum_unique, one_mul]

theorem box_head (u e : ℝ) (b : box.B) : Swe.headBnd boxTerm boxBc (flow u) (cst box e) (cst box 0) (box.marker b) b =
    if (show Fin 4 from b) = 1 then e / 2 + u else e + u * box.nb b 0 := by
  unfold Swe.headBnd
  by_cases hb : (show Fin 4 from b) = 1
  · obtain rfl : b = (show box.B from (1 : Fin 4)) := hb
    have h : Swe.openFuncs (boxBc (box.marker (show box.B from (1 : Fin 4)))) = some [.elev fun _ => 0, .uv fun _ _ => 0] := rfl
    rw [h]
    simp only [Swe.headOpen, box_total, Swe.bndF, Swe.bndFunctions, Swe.Funcs.elev, Swe.Funcs.uv, Fin.sum_univ_two, Swe.atB,
      List.findSome?]
    simp [flow, box, boxTerm]
    ring
  · rw [box_closed' b hb, if_neg hb]
    simp only [box_total, normalAt, Fin.sum_univ_two]
    simp [flow, boxTerm]

theorem box_momentum (u e a : ℝ) : Swe.momentum boxTerm boxCoeffs boxBc (flow u) (cst box e) (flow 0) (cst box 0) (flow a) =
    (-(10 * (2 * u - e / 2)) + 256 / 11) * a := by
  have h0 : ∀ f : box.S → ℝ, box.dS f = 0 := fun f => Finset.sum_eq_zero fun s _ => s.elim
  have hp : Swe.pressure boxTerm boxBc (flow u) (cst box e) (cst box 0) (flow a) = -(10 * (2 * u - e / 2)) * a := by
    have he : boxTerm.etaDg = true := rfl
    simp only [Swe.pressure, bndLoop_eq, box_head, h0, he, if_true, normalAt, Fin.sum_univ_two]
    change -(box.dx _ + 0 + ∑ b : Fin 4, (1 : ℝ) * (10 * (if b = 1 then e / 2 + u else e + u * box.nb b 0) *
      ((flow a 0 (.bnd b)).v * box.nb b 0 + (flow a 1 (.bnd b)).v * box.nb b 1))) = _
    simp [Fin.sum_univ_four, Mesh.dx, div, flow, box]
    ring
  have ha : Swe.advection boxTerm boxBc (flow u) (cst box e) (flow 0) (cst box 0) (flow a) = 0 := by
    have hn : boxTerm.nonlinear = true := rfl
    have h1 : ∀ b, Swe.lfBnd boxTerm boxBc (flow u) (flow 0) (flow a) (box.marker b) b = 0 := fun b => by
      unfold Swe.lfBnd
      cases Swe.openFuncs (boxBc (box.marker b)) <;> simp [normalAt, flow]
    have h2 : ∀ b, Swe.momBnd boxTerm boxBc (flow u) (cst box e) (flow 0) (cst box 0) (flow a) (box.marker b) b = 0 := fun b => by
      unfold Swe.momBnd
      by_cases hb : (show Fin 4 from b) = 1
      · obtain rfl : b = (show box.B from (1 : Fin 4)) := hb
        have h : Swe.openFuncs (boxBc (box.marker (show box.B from (1 : Fin 4)))) = some [.elev fun _ => 0, .uv fun _ _ => 0] := rfl
        rw [h]
        simp [Swe.momFlux, Swe.bndF, Swe.bndFunctions, Swe.Funcs.elev, Swe.Funcs.uv, Swe.atB, flow]
      · rw [box_closed' b hb]
    simp only [Swe.advection, hn, if_true, h0, bndLoop_eq, h1, h2, box_dx]
    simp [div, flow]
  have hs : Swe.momentumSource boxCoeffs.source (flow a) = 256 / 11 * a := by
    simp only [Swe.momentumSource, boxCoeffs, box_dx, Fin.sum_univ_two]
    simp [flow]
  have hv : Swe.boundaryDrag boxBc (flow u) (flow 0) (flow a) = 0 := by
    have h : ∀ k, (boxBc k).bind Swe.Funcs.drag = none := fun k => by
      unfold boxBc
      split <;> rfl
    simp [Swe.boundaryDrag, bndLoop_eq, Swe.dragBnd, h]
  simp only [Swe.momentum, hp, ha, hs, hv]
  simp [Swe.viscosity, Swe.coriolis, Swe.windStress, Swe.atmPressure, Swe.quadraticDrag, Swe.linearDrag, Swe.bottomDrag3d, Swe.turbineDrag,
    boxCoeffs, Swe.noCoeffs]
  ring

theorem box_mass (e c : ℝ) : Swe.massEta boxTerm (cst box e) (cst box c) = e * c := by
  rw [massEta_dry boxTerm rfl]
  simp [ip, box_dx]

theorem box_ip (a c : ℝ) : ∑ i, ip (flow a i) (flow c i) = a * c := by
  simp [ip, box_dx, flow]

theorem box_step : ThetaStep (swe boxTerm boxCoeffs boxBc) (swe boxTerm boxCoeffs boxBc) 1 1 true (flows.prod levels)
    (flow 0, cst box 0) (flow 1, cst box (-(5 / 11))) := by
  refine ⟨⟨⟨1, rfl⟩, ⟨_, rfl⟩⟩, ?_⟩
  rintro ⟨_, _⟩ ⟨⟨a, rfl⟩, ⟨c, rfl⟩⟩
  simp only [swe, if_true, box_momentum, box_continuity, box_mass, box_ip]
  ring

theorem box_fs : FsStep boxTerm boxCoeffs boxCoeffs boxBc 1 1 true levels (flow 0, cst box 0) (flow 1) (cst box (-(11 / 24))) := by
  refine ⟨⟨_, rfl⟩, ?_⟩
  rintro _ ⟨c, rfl⟩
  simp only [fs, if_true, box_continuity, box_mass]
  ring

/-- C146: with `use_semi_implicit_linearization` and an open boundary with a velocity, a step without correction has another elevation
than the step of the shallow water equations: the free surface equation takes the new velocity where those equations take the old. -/
theorem C146_open_violated :
    ∃ new, NhStep (ThetaStep (swe boxTerm boxCoeffs boxBc) (swe boxTerm boxCoeffs boxBc) 1 1 true (flows.prod levels))
        (fun mid u => u = mid.1) boxTerm boxCoeffs boxCoeffs boxBc 1 1 true levels (flow 0, cst box 0) new ∧
      ¬ ThetaStep (swe boxTerm boxCoeffs boxBc) (swe boxTerm boxCoeffs boxBc) 1 1 true (flows.prod levels) (flow 0, cst box 0) new := by
  refine ⟨(flow 1, cst box (-(11 / 24))), ⟨_, box_step, rfl, box_fs⟩, fun h => ?_⟩
  have := h.2 (0, cst box 1) ⟨flows.zero_mem, ⟨1, rfl⟩⟩
  rw [mass_elev, mass_elev, (C146_parts _ _ _ _ _ 0 _).2, (C146_parts _ _ _ _ _ 0 _).2] at this
  simp only [fs, if_true, box_continuity, box_mass] at this
  norm_num at this

end Verif.Surface
