import Verif.Frame.Props4
import Verif.Swe.Props
import Verif.Tracer2.Props
import Verif.Ext.Tank

/-!
C140: the same solutions in every description; examples, and what happens where the upwind side is not defined.
-/

namespace Verif.Frame

open Verif.Dg Verif.Ext

/-! ### Solutions -/

/-- C140: the shallow water equations.  `W`, `Q` are the test functions; `(uv, eta)` solves the equations in the one
description if and only if it does in the other. -/
theorem C140_same_solutions {m m' : Mesh 2} (V : View m m') (hf : m.Flat) (T : Swe.Term m) (K : Swe.Coeffs m)
    (bc : ℕ → Option (Swe.Funcs m)) (uv : Vc m) (eta : Sc m) (uvOld : Vc m) (etaOld : Sc m) (W : Set (Vc m))
    (Q : Set (Sc m)) (hct : ∀ F ∈ K.farms, ∀ u h, F.ct (rotV V.R u) h = F.ct u h) :
    ((∀ w ∈ V.vc '' W, Swe.momentum (V.term T) (V.coeffs K) (V.bcs bc) (V.vc uv) (V.sc eta) (V.vc uvOld) (V.sc etaOld) w = 0) ↔
      ∀ w ∈ W, Swe.momentum T K bc uv eta uvOld etaOld w = 0) ∧
    ((∀ q ∈ V.sc '' Q, Swe.continuity (V.term T) (V.coeffs K) (V.bcs bc) (V.vc uv) (V.sc eta) (V.vc uvOld) (V.sc etaOld) q = 0) ↔
      ∀ q ∈ Q, Swe.continuity T K bc uv eta uvOld etaOld q = 0) := by
  simp only [Set.forall_mem_image, C140_momentum V hf T K bc uv eta uvOld etaOld _ hct,
    (C140_continuity V T K bc uv eta uvOld etaOld _).1, and_self]

/-- C140: the momentum equation of the 3D model. -/
theorem C140_same_solutions3 {e e' : Mesh3} (V : View3 e e') (hf : e.m.Flat) (T : Mom3.Term e) (F : Mom3.Fields e)
    (bc : ℕ → Option (Mom3.BFuncs e)) (sol old : Vc e.m) (W : Set (Vc e.m)) :
    (∀ w ∈ V.vc '' W, Mom3.residual (V.momTerm T) (V.momFields F) (V.momBcs bc) (V.vc sol) (V.vc old) w = 0) ↔
      ∀ w ∈ W, Mom3.residual T F bc sol old w = 0 := by
  simp only [Set.forall_mem_image, C140_momentum3 V hf T F bc sol old]

/-! ### Examples -/

/-- A quarter turn. -/
def quarter : Fin 2 → Fin 2 → ℝ := ![![0, -1], ![1, 0]]

theorem quarter_orth : ∀ i j, ∑ k, quarter k i * quarter k j = if i = j then 1 else 0 := by
  intro i j
  rw [Fin.sum_univ_two]
  fin_cases i <;> fin_cases j <;> simp [quarter]

/-- The square turned by a quarter, with the two sides of the diagonal exchanged. -/
noncomputable def turnedSquare : View square (turned square quarter fun _ => true) := turn square quarter quarter_orth _

/-- The bottom side, with normal `(0, -1)`, looks to the right, and the normal of the diagonal has changed. -/
example : (turned square quarter fun _ => true).nb SqB.b0 = ![1, 0] ∧
    (turned square quarter fun _ => true).np SqS.s0 = ![1 / Real.sqrt 2, -(1 / Real.sqrt 2)] := by
  constructor
  · change rotV quarter ![sqNx SqB.b0, sqNy SqB.b0] = _
    funext i
    fin_cases i <;> simp [rotV, quarter, sqNx, sqNy]
  · change rotV quarter (fun _ => -(1 / Real.sqrt 2)) = _
    funext i
    fin_cases i <;> simp [rotV, quarter]

/-- A turbine with a thrust that depends on the speed. -/
noncomputable def exFarm : Swe.Farm square := ⟨fun _ => true, fun _ => 2, fun u h => (u 0 ^ 2 + u 1 ^ 2) * h⟩

/-- The momentum equation with viscosity, Coriolis force, wind and the turbine on the turned square. -/
example (uv uvOld w : Vc square) (eta etaOld : Sc square) :
    let K : Swe.Coeffs square := { Swe.noCoeffs with
      nu := some (cst square 1), coriolis := some (cst square 2), wind := some fun _ => cst square 3, farms := [exFarm] }
    Swe.momentum (turnedSquare.term Swe.exTerm) (turnedSquare.coeffs K) (turnedSquare.bcs Swe.exBc) (turnedSquare.vc uv)
      (turnedSquare.sc eta) (turnedSquare.vc uvOld) (turnedSquare.sc etaOld) (turnedSquare.vc w) =
      Swe.momentum Swe.exTerm K Swe.exBc uv eta uvOld etaOld w := by
  refine C140_momentum turnedSquare square_flat _ _ _ uv eta uvOld etaOld w fun F hF u h => ?_
  obtain rfl : F = exFarm := by simpa using hF
  have := dot_rot quarter_orth u u
  rw [Fin.sum_univ_two, Fin.sum_univ_two] at this
  change (rotV quarter u 0 ^ 2 + rotV quarter u 1 ^ 2) * h = (u 0 ^ 2 + u 1 ^ 2) * h
  rw [sq, sq, sq, sq, this]

/-- Velocities that are continuous across facets are settled. -/
theorem settled_continuous {m : Mesh 2} (hf : m.Flat) (T : Tracer2.Term m) (uv : Vc m)
    (h : ∀ i s, (uv i (.plus s)).v = (uv i (.minus s)).v) : Settled T uv := by
  refine .inr fun s h0 => ?_
  unfold Tracer2.unAv avg at h0
  rw [h, h] at h0
  rw [Fin.sum_univ_two, Fin.sum_univ_two, h, h]
  have h1 : (uv 0 (.minus s)).v * m.nm s 0 + (uv 1 (.minus s)).v * m.nm s 1 = 0 := by linear_combination h0
  refine ⟨?_, h1⟩
  rw [hf, hf] at h1
  linear_combination -h1

/-- Advection with the discontinuous velocity of `Tracer2.exFlow` and `sign(0) = 0` on the turned square. -/
example (c test : Sc square) : Tracer2.advection (turnedSquare.tracerTerm Tracer2.exTerm) (turnedSquare.flow Tracer2.exFlow)
    (turnedSquare.tracerBcs fun _ => none) (turnedSquare.sc c) (turnedSquare.sc test) =
    Tracer2.advection Tracer2.exTerm Tracer2.exFlow (fun _ => none) c test :=
  C140_tracer_advection turnedSquare square_flat _ _ _ c test fun _ _ => .inl rfl

/-- A mirror of the first axis. -/
def mirror : Fin 3 → Fin 3 → ℝ := ![![-1, 0, 0], ![0, 1, 0], ![0, 0, 1]]

theorem mirror_orth : ∀ i j, ∑ k, mirror k i * mirror k j = if i = j then 1 else 0 := by
  intro i j
  rw [Fin.sum_univ_three]
  fin_cases i <;> fin_cases j <;> simp [mirror]

/-- The mirrored tank, with the upper layer on the plus side. -/
noncomputable def mirroredTank : View3 tank ⟨turned tank.m mirror fun _ => true, tank.hor, tank.face⟩ where
  toView := turn tank.m mirror mirror_orth _
  hor := fun _ => rfl
  face := fun _ => rfl
  up := by simp [turn, mirror]

/-- The Coriolis parameter has the other sign there. -/
example : mirroredTank.det = -1 := by simp [View3.det, mirroredTank, turn, mirror]

/-- The momentum equation in the mirrored tank. -/
example (T : Mom3.Term tank) (F : Mom3.Fields tank) (bc : ℕ → Option (Mom3.BFuncs tank)) (sol old test : Vc tank.m) :
    Mom3.residual (mirroredTank.momTerm T) (mirroredTank.momFields F) (mirroredTank.momBcs bc) (mirroredTank.vc sol)
      (mirroredTank.vc old) (mirroredTank.vc test) = Mom3.residual T F bc sol old test :=
  C140_momentum3 mirroredTank tank_flat T F bc sol old test

/-- The tracer equation in the mirrored tank, with a horizontal velocity. -/
example (T : Tracer3.Term tank) (F : Tracer3.Fields tank) (bc : ℕ → Option (Tracer3.BFuncs tank)) (c test : Sc tank.m) :
    Tracer3.residual (mirroredTank.tracerTerm T)
      (mirroredTank.tracerFields { F with uv := some fun i => cst tank.m (if i = 2 then 0 else 1), uvDav := none })
      (mirroredTank.tracerBcs bc) (mirroredTank.sc c) (mirroredTank.sc test) =
    Tracer3.residual T { F with uv := some fun i => cst tank.m (if i = 2 then 0 else 1), uvDav := none } bc c test := by
  refine C140_tracer3 mirroredTank tank_flat T _ bc c test (.inr fun uv h s => ?_)
  cases h
  simp [Tracer3.totalUv, avg]

/-! ### Where the upwind side is not defined -/

/-- Flow against the diagonal from both sides. -/
noncomputable def clash : Vc square := fun _ => squareField ⟨1, 0, 0, 0, 0, 0⟩ ⟨-1, 0, 0, 0, 0, 0⟩

/-- The term with another value of `sign(0)`. -/
noncomputable def clashTerm (z : ℝ) : Tracer2.Term square := { Tracer2.exTerm with z := z }

/-- The flow. -/
noncomputable def clashFlow : Tracer2.Flow square := { Tracer2.exFlow with uv := some clash }

/-- The same axes. -/
def same : Fin 2 → Fin 2 → ℝ := fun i j => if i = j then 1 else 0

theorem same_orth : ∀ i j, ∑ k, same k i * same k j = if i = j then 1 else 0 := by
  intro i j
  rw [Fin.sum_univ_two]
  fin_cases i <;> fin_cases j <;> simp [same]

/-- The square with only the names of the two sides of the diagonal exchanged. -/
noncomputable def renamed : View square (turned square same fun _ => true) := turn square same same_orth _

/-- What the value of `sign(0)` changes. -/
theorem advection_sign {m : Mesh 2} (T : Tracer2.Term m) (F : Tracer2.Flow m) (uv : Vc m) (hu : F.uv = some uv)
    (c test : Sc m) (z : ℝ) (hd : T.dg = true) :
    Tracer2.advection { T with z := z } F (fun _ => none) c test - Tracer2.advection { T with z := 0 } F (fun _ => none) c test =
      -m.dS fun s => ((c (.minus s)).v - (c (.plus s)).v) * (if Tracer2.unAv (Tracer2.corrected F uv) s = 0 then z / 2 else 0) *
        ∑ i, ((test (.plus s)).v * ((Tracer2.corrected F uv i (.plus s)).v * m.np s i) +
          (test (.minus s)).v * ((Tracer2.corrected F uv i (.minus s)).v * m.nm s i)) := by
  have hs : ∀ x : ℝ, sgn z x = sgn 0 x + if x = 0 then z else 0 := by
    intro x
    unfold sgn
    rcases lt_trichotomy x 0 with h | h | h
    · simp [h, h.ne]
    · simp [h]
    · simp [h, h.ne']
  unfold Tracer2.advection
  simp only [hu, hd, if_true]
  generalize Tracer2.corrected F uv = u
  unfold Mesh.dS Tracer2.upwind Tracer2.advBndFlux
  simp only [hs (Tracer2.unAv u _)]
  rw [show ∀ a b c d e : ℝ, -(a + (b + c) + d) - -(a + (e + c) + d) = -(b - e) from fun _ _ _ _ _ => by ring,
    ← Finset.sum_sub_distrib]
  refine congrArg Neg.neg (Finset.sum_congr rfl fun s _ => ?_)
  rw [Fin.sum_univ_two]
  split <;> ring

/-- C140: the rate of change of a tracer depends on the names of the two sides if `sign(0)` is not zero, where the mean
normal velocity is zero but the water moves to the facet on both sides. -/
theorem C140_settled_needed (z : ℝ) :
    Tracer2.advection (renamed.tracerTerm (clashTerm z)) (renamed.flow clashFlow) (renamed.tracerBcs fun _ => none)
        (renamed.sc (squareField ⟨1, 0, 0, 0, 0, 0⟩ ⟨0, 0, 0, 0, 0, 0⟩)) (renamed.sc (cst square 1)) -
      Tracer2.advection (clashTerm z) clashFlow (fun _ => none)
        (squareField ⟨1, 0, 0, 0, 0, 0⟩ ⟨0, 0, 0, 0, 0, 0⟩) (cst square 1) = -4 * z := by
  have h0 := C140_tracer_advection renamed square_flat (clashTerm 0) clashFlow (fun _ => none)
    (squareField ⟨1, 0, 0, 0, 0, 0⟩ ⟨0, 0, 0, 0, 0, 0⟩) (cst square 1) fun _ _ => .inl rfl
  have h1 := advection_sign (clashTerm 0) clashFlow clash rfl (squareField ⟨1, 0, 0, 0, 0, 0⟩ ⟨0, 0, 0, 0, 0, 0⟩)
    (cst square 1) z rfl
  have h2 := advection_sign (renamed.tracerTerm (clashTerm 0)) (renamed.flow clashFlow) (renamed.vc clash) rfl
    (renamed.sc (squareField ⟨1, 0, 0, 0, 0, 0⟩ ⟨0, 0, 0, 0, 0, 0⟩)) (renamed.sc (cst square 1)) z rfl
  have hb : (fun _ => none : ℕ → Option (Tracer2.BFuncs (turned square same fun _ => true))) = renamed.tracerBcs fun _ => none := rfl
  rw [hb] at h2
  have hp : ∀ i s, (Tracer2.corrected clashFlow clash i (.plus s)).v = 1 := fun i s => by
    change 1 * (clash i (.plus s)).v = 1
    cases s <;> simp [clash, squareField, Quad.jet]
  have hm : ∀ i s, (Tracer2.corrected clashFlow clash i (.minus s)).v = -1 := fun i s => by
    change 1 * (clash i (.minus s)).v = -1
    cases s <;> simp [clash, squareField, Quad.jet]
  have cp : ∀ s, (squareField ⟨1, 0, 0, 0, 0, 0⟩ ⟨0, 0, 0, 0, 0, 0⟩ (.plus s)).v = 1 := fun s => by
    cases s <;> simp [squareField, Quad.jet]
  have cm : ∀ s, (squareField ⟨1, 0, 0, 0, 0, 0⟩ ⟨0, 0, 0, 0, 0, 0⟩ (.minus s)).v = 0 := fun s => by
    cases s <;> simp [squareField, Quad.jet]
  have hu : ∀ s, Tracer2.unAv (Tracer2.corrected clashFlow clash) s = 0 := fun s => by
    simp [Tracer2.unAv, avg, hp, hm]
  have hn : ∀ s i, square.np s i = 1 / Real.sqrt 2 ∧ square.nm s i = -(1 / Real.sqrt 2) := fun s i => ⟨rfl, rfl⟩
  have hw : ∑ s : square.S, square.wS s = Real.sqrt 2 := by
    refine (sum_sqS sqWS).trans ?_
    simp only [sqWS]
    ring
  have h2' : Real.sqrt 2 ≠ 0 := by positivity
  have e1 : ∀ a : ℝ, (square.dS fun _ => a) = Real.sqrt 2 * a := fun a => by
    unfold Mesh.dS
    rw [← Finset.sum_mul, hw]
  have g1 : ∀ s, ((squareField ⟨1, 0, 0, 0, 0, 0⟩ ⟨0, 0, 0, 0, 0, 0⟩ (.minus s)).v -
      (squareField ⟨1, 0, 0, 0, 0, 0⟩ ⟨0, 0, 0, 0, 0, 0⟩ (.plus s)).v) *
      (if Tracer2.unAv (Tracer2.corrected clashFlow clash) s = 0 then z / 2 else 0) *
        ∑ i, ((cst square 1 (.plus s)).v * ((Tracer2.corrected clashFlow clash i (.plus s)).v * square.np s i) +
          (cst square 1 (.minus s)).v * ((Tracer2.corrected clashFlow clash i (.minus s)).v * square.nm s i)) =
      -(2 * z / Real.sqrt 2) := by
    intro s
    rw [cp, cm, hu, if_pos rfl, Fin.sum_univ_two]
    simp only [hp, hm, hn, cst_apply, Jet.const_v]
    field_simp
    ring
  rw [funext g1, e1] at h1
  rw [View.corrected_eq, renamed.dS_eq (g := fun _ => 2 * z / Real.sqrt 2) fun s => ?_, e1] at h2
  · have k1 : Real.sqrt 2 * (2 * z / Real.sqrt 2) = 2 * z := by field_simp
    change Tracer2.advection (renamed.tracerTerm (clashTerm z)) _ _ _ _ - _ = _ at h2
    change Tracer2.advection (clashTerm z) _ _ _ _ - Tracer2.advection (clashTerm 0) _ _ _ _ = _ at h1
    change _ - Tracer2.advection (renamed.tracerTerm (clashTerm 0)) _ _ _ _ = _ at h2
    linear_combination h2 - h1 + h0 - 2 * k1
  · rw [unAv_eq renamed square_flat, hu, mul_zero, if_pos rfl, Fin.sum_univ_two]
    simp only [View.sc_v, View.vc_v, View.pt_plus, View.pt_minus, renamed.np, renamed.nm, show renamed.flip s = true from rfl,
      if_true, cp, cm, hp, hm, cst_apply, Jet.const_v, show renamed.R = same from rfl, rotV, Fin.sum_univ_two, same, hn]
    norm_num
    field_simp
    ring

end Verif.Frame
