import Verif.Unit.Props4
import Verif.Swe.Props
import Verif.Ext.Tank

/-!
C141: the same time steps in every system of units; examples, and a constant that must be converted.
-/

namespace Verif.Unit

open Verif.Dg Verif.Ext

/-! ### Time steps -/

/-- `mass_term` of a vector, equation.py:99-105. -/
def massV {d : ℕ} {m : Mesh d} (u w : Vc m) : ℝ := m.dx fun x => ∑ i, (u i (.cell x)).v * (w i (.cell x)).v

/-- `mass_term` of a scalar, equation.py:99-105. -/
def massS {d : ℕ} {m : Mesh d} (c q : Sc m) : ℝ := m.dx fun x => (c (.cell x)).v * (q (.cell x)).v

theorem massV_eq (U : Conv) {d : ℕ} {m : Mesh d} (k : ℝ) (u w : Vc m) :
    massV (m := U.mesh m) (U.vc k u) (U.vc 1 w) = U.L ^ d * k * massV u w := by
  refine U.dx_eq k (fun x => sum_eq fun i => ?_) rfl
  simp only [Conv.vc_v, Conv.pt_cell]
  ring

theorem massS_eq (U : Conv) {d : ℕ} {m : Mesh d} (k : ℝ) (c q : Sc m) :
    massS (m := U.mesh m) (U.sc k c) (U.sc 1 q) = U.L ^ d * k * massS c q := by
  refine U.dx_eq k (fun x => ?_) rfl
  simp only [Conv.sc_v, Conv.pt_cell]
  ring

theorem scale_iff {k a b a' b' : ℝ} (hk : k ≠ 0) (ha : a' = k * a) (hb : b' = k * b) : a' = b' ↔ a = b := by
  rw [ha, hb, mul_right_inj' hk]

/-- C141: a step of a theta scheme for the shallow water equations.  `W`, `P` are the test functions; the new state
solves the step of length `dt` in the old units if and only if it solves the step of the same length in the new units. -/
theorem C141_same_step (U : Conv) {m : Mesh 2} (T : Swe.Term m) (K : Swe.Coeffs m) (bc : ℕ → Option (Swe.Funcs m))
    (uv uv0 : Vc m) (eta eta0 : Sc m) (W : Set (Vc m)) (P : Set (Sc m)) (dt theta : ℝ) :
    ((∀ w ∈ U.vc 1 '' W, massV (m := U.mesh m) (U.vc U.V uv) w - massV (m := U.mesh m) (U.vc U.V uv0) w = U.T * dt *
        (theta * Swe.momentum (U.term T) (U.coeffs K) (U.bcs bc) (U.vc U.V uv) (U.sc U.L eta) (U.vc U.V uv) (U.sc U.L eta) w +
        (1 - theta) * Swe.momentum (U.term T) (U.coeffs K) (U.bcs bc) (U.vc U.V uv0) (U.sc U.L eta0) (U.vc U.V uv0)
          (U.sc U.L eta0) w)) ↔
      ∀ w ∈ W, massV uv w - massV uv0 w = dt * (theta * Swe.momentum T K bc uv eta uv eta w +
        (1 - theta) * Swe.momentum T K bc uv0 eta0 uv0 eta0 w)) ∧
    ((∀ q ∈ U.sc 1 '' P, Swe.massEta (U.term T) (U.sc U.L eta) q - Swe.massEta (U.term T) (U.sc U.L eta0) q = U.T * dt *
        (theta * Swe.continuity (U.term T) (U.coeffs K) (U.bcs bc) (U.vc U.V uv) (U.sc U.L eta) (U.vc U.V uv) (U.sc U.L eta) q +
        (1 - theta) * Swe.continuity (U.term T) (U.coeffs K) (U.bcs bc) (U.vc U.V uv0) (U.sc U.L eta0) (U.vc U.V uv0)
          (U.sc U.L eta0) q)) ↔
      ∀ q ∈ P, Swe.massEta T eta q - Swe.massEta T eta0 q = dt * (theta * Swe.continuity T K bc uv eta uv eta q +
        (1 - theta) * Swe.continuity T K bc uv0 eta0 uv0 eta0 q)) := by
  have hL := U.hL.ne'
  have hT := U.hT.ne'
  have h3 : U.L ^ 3 / U.T ≠ 0 := div_ne_zero (pow_ne_zero _ hL) hT
  simp only [Set.forall_mem_image, massV_eq, C141_momentum, C141_mass, C141_continuity]
  constructor
  · refine forall₂_congr fun w _ => ?_
    refine scale_iff h3 ?_ ?_
    · rw [Conv.V]
      ring
    · field_simp
  · refine forall₂_congr fun w _ => ?_
    refine scale_iff (pow_ne_zero 3 hL) ?_ ?_
    · ring
    · field_simp

/-- C141: a step of a theta scheme for the momentum and tracer equations of the 3D model. -/
theorem C141_same_step3 (U : Conv) {e : Mesh3} (T : Mom3.Term e) (F : Mom3.Fields e) (bc : ℕ → Option (Mom3.BFuncs e))
    (uv uv0 : Vc e.m) (W : Set (Vc e.m)) (TT : Tracer3.Term e) (FT : Tracer3.Fields e) (bt : ℕ → Option (Tracer3.BFuncs e))
    (c c0 : Sc e.m) (P : Set (Sc e.m)) (Q : ℝ) (hQ : Q ≠ 0) (dt theta : ℝ) :
    ((∀ w ∈ U.vc 1 '' W, massV (m := U.mesh e.m) (U.vc U.V uv) w - massV (m := U.mesh e.m) (U.vc U.V uv0) w = U.T * dt *
        (theta * Mom3.residual (U.momTerm T) (U.momFields F) (fun k => (bc k).map U.momFuncs) (U.vc U.V uv) (U.vc U.V uv) w +
        (1 - theta) * Mom3.residual (U.momTerm T) (U.momFields F) (fun k => (bc k).map U.momFuncs) (U.vc U.V uv0)
          (U.vc U.V uv0) w)) ↔
      ∀ w ∈ W, massV uv w - massV uv0 w = dt * (theta * Mom3.residual T F bc uv uv w +
        (1 - theta) * Mom3.residual T F bc uv0 uv0 w)) ∧
    ((∀ q ∈ U.sc 1 '' P, massS (m := U.mesh e.m) (U.sc Q c) q - massS (m := U.mesh e.m) (U.sc Q c0) q = U.T * dt *
        (theta * Tracer3.residual (U.term3 TT) (U.fields3 Q FT) (fun k => (bt k).map (U.funcs3 Q)) (U.sc Q c) q +
        (1 - theta) * Tracer3.residual (U.term3 TT) (U.fields3 Q FT) (fun k => (bt k).map (U.funcs3 Q)) (U.sc Q c0) q)) ↔
      ∀ q ∈ P, massS c q - massS c0 q = dt * (theta * Tracer3.residual TT FT bt c q +
        (1 - theta) * Tracer3.residual TT FT bt c0 q)) := by
  have hL := U.hL.ne'
  have hT := U.hT.ne'
  simp only [Set.forall_mem_image, massV_eq, massS_eq, C141_momentum3, C141_tracer3]
  constructor
  · refine forall₂_congr fun w _ => ?_
    refine scale_iff (div_ne_zero (pow_ne_zero 4 hL) hT) ?_ ?_
    · rw [Conv.V]
      ring
    · field_simp
  · refine forall₂_congr fun w _ => ?_
    refine scale_iff (mul_ne_zero (pow_ne_zero 3 hL) hQ) ?_ ?_
    · ring
    · field_simp

/-! ### Examples -/

/-- From metres and seconds to kilometres and hours. -/
noncomputable def kmHours : Conv := ⟨1 / 1000, 1 / 3600, 1000 ^ 3, by norm_num, by norm_num, by norm_num⟩

/-- One metre per second is 3.6 kilometres per hour. -/
example : kmHours.V = 3.6 := by
  rw [Conv.V]
  norm_num [kmHours]

/-- The momentum equation with viscosity, Coriolis force, wind, linear and quadratic drag in kilometres and hours. -/
example (uv uvOld w : Vc square) (eta etaOld : Sc square) :
    let K : Swe.Coeffs square := { Swe.noCoeffs with
      nu := some (cst square 1), coriolis := some (cst square 2), wind := some fun _ => cst square 3,
      linear := some (cst square 4), cd := some fun _ => 5 }
    Swe.momentum (kmHours.term Swe.exTerm) (kmHours.coeffs K) (kmHours.bcs Swe.exBc) (kmHours.vc kmHours.V uv)
      (kmHours.sc kmHours.L eta) (kmHours.vc kmHours.V uvOld) (kmHours.sc kmHours.L etaOld) (kmHours.vc 1 w) =
      0.01296 * Swe.momentum Swe.exTerm K Swe.exBc uv eta uvOld etaOld w := by
  intro K
  rw [C141_momentum]
  norm_num [kmHours]

/-- The momentum equation in the tank. -/
example (T : Mom3.Term tank) (F : Mom3.Fields tank) (bc : ℕ → Option (Mom3.BFuncs tank)) (sol old test : Vc tank.m) :
    Mom3.residual (kmHours.momTerm T) (kmHours.momFields F) (fun k => (bc k).map kmHours.momFuncs)
      (kmHours.vc kmHours.V sol) (kmHours.vc kmHours.V old) (kmHours.vc 1 test) =
      0.00001296 * Mom3.residual T F bc sol old test := by
  rw [C141_momentum3]
  norm_num [kmHours]

/-! ### Constants with a unit -/

/-- A continuous elevation space. -/
noncomputable def cgTerm : Swe.Term square := { Swe.exTerm with etaDg := false }

/-- The surface rises to the right. -/
noncomputable def slope : Sc square := squareField ⟨0, 1, 0, 0, 0, 0⟩ ⟨0, 1, 0, 0, 0, 0⟩

/-- The pressure force without boundary terms. -/
theorem pressure_cg {m : Mesh 2} (T : Swe.Term m) (h : T.etaDg = false) (uv : Vc m) (eta etaOld : Sc m) (w : Vc m) :
    Swe.pressure T (fun _ => none) uv eta etaOld w =
      -(T.g * m.dx fun x => ∑ i, (eta (.cell x)).g i * (w i (.cell x)).v) := by
  unfold Swe.pressure
  have h0 : (m.bndLoop fun k b => T.g * Swe.headCorr T (fun _ => none) uv eta etaOld k b * normalAt w b) = 0 := by
    have : ∀ k b, T.g * Swe.headCorr T (fun _ => none) uv eta etaOld k b * normalAt w b = 0 := fun k b => by
      rw [show Swe.headCorr T (fun _ => none) uv eta etaOld k b = 0 from rfl, mul_zero, zero_mul]
    simp only [this]
    simp [Mesh.bndLoop, Mesh.ds]
  simp only [h, Bool.false_eq_true, if_false, h0, add_zero]
  unfold Mesh.dx
  rw [Finset.mul_sum]
  refine congrArg Neg.neg (Finset.sum_congr rfl fun x _ => ?_)
  ring

/-- C141: gravity must be converted too: with the number for metres and seconds the forces agree only in units with
`L = T²`.  physical_constants.py:7 has the number for SI units; a mesh in other units needs another value. -/
theorem C141_gravity_needed (U : Conv) :
    Swe.pressure { U.term cgTerm with g := cgTerm.g } (fun _ => none) (U.vc U.V (Swe.rest square)) (U.sc U.L slope)
        (U.sc U.L slope) (U.vc 1 fun _ => cst square 1) =
      U.L ^ 3 / U.T ^ 2 * Swe.pressure cgTerm (fun _ => none) (Swe.rest square) slope slope (fun _ => cst square 1) ↔
    U.L = U.T ^ 2 := by
  have hL := U.hL.ne'
  have hT := U.hT.ne'
  have h1 : (square.dx fun x => ∑ i, (slope (.cell x)).g i * (cst square 1 (.cell x)).v) = 1 := by
    unfold Mesh.dx
    refine (sum_sqC fun x => 1 / 6 * ∑ i, (slope (.cell x)).g i * (cst square 1 (.cell x)).v).trans ?_
    simp [slope, squareField, Quad.jet, Fin.sum_univ_two, cst, Jet.const]
    norm_num
  have h2 : ((U.mesh square).dx fun x => ∑ i, (U.sc U.L slope (.cell x)).g i * (U.vc 1 (fun _ => cst square 1) i (.cell x)).v) =
      U.L ^ 2 := by
    rw [U.dx_eq (g := fun x => ∑ i, (slope (.cell x)).g i * (cst square 1 (.cell x)).v) 1 (fun x => ?_) (mul_one _), h1, mul_one]
    refine sum_eq fun i => ?_
    simp only [Conv.sc_g, Conv.vc_v, Conv.pt_cell]
    field_simp
  rw [pressure_cg _ rfl, pressure_cg _ rfl, h1]
  change -(10 * _) = _ * -(10 * 1) ↔ _
  rw [h2]
  constructor
  · intro h
    field_simp at h
    linarith
  · intro h
    rw [← h]
    field_simp

end Verif.Unit
