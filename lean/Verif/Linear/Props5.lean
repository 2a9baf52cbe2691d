import Verif.Linear.Props4
import Verif.Limiter.Model
import Verif.Swe.Props
import Mathlib.Tactic.NormNum

/-!
C143: examples, and where superposition ends.
-/

namespace Verif.Linear

open Verif.Dg Verif.Contract

/-! ### Examples -/

/-- The hypotheses for the flow hold for two tides: the response to the sum of both is the sum of the responses, here for
one implicit step. -/
example (f g : square.B → ℝ) (dt : ℝ) (H : Submodule ℝ (State square)) (u u' v v' : State square)
    (h : ThetaStep (swe Swe.exTerm Swe.noCoeffs fun _ => some [.elev f]) (swe Swe.exTerm Swe.noCoeffs fun _ => some [.elev f])
      dt (1 / 2) true H u v)
    (h' : ThetaStep (swe Swe.exTerm Swe.noCoeffs fun _ => some [.elev g]) (swe Swe.exTerm Swe.noCoeffs fun _ => some [.elev g])
      dt (1 / 2) true H u' v') :
    ThetaStep (swe Swe.exTerm Swe.noCoeffs fun _ => some [.elev fun x => f x + g x])
      (swe Swe.exTerm Swe.noCoeffs fun _ => some [.elev fun x => f x + g x]) dt (1 / 2) true H (u + u') (v + v') := by
  have S : Super 1 1 (swe Swe.exTerm Swe.noCoeffs fun _ => some [.elev f]) (swe Swe.exTerm Swe.noCoeffs fun _ => some [.elev g])
      (swe Swe.exTerm Swe.noCoeffs fun _ => some [.elev fun x => f x + g x]) :=
    C143_swe ⟨rfl, rfl, rfl⟩
      { wind := by ext <;> simp [vcOr, Swe.noCoeffs]
        pressure := by ext <;> simp [scOr, Swe.noCoeffs]
        source := by ext <;> simp [vcOr, Swe.noCoeffs]
        volume := by ext <;> simp [scOr, Swe.noCoeffs]
        nu₁ := rfl
        nu₂ := rfl
        coriolis₁ := rfl
        coriolis₂ := rfl
        linear₁ := rfl
        linear₂ := rfl
        cd := ⟨rfl, rfl, rfl⟩
        bottomDrag := ⟨rfl, rfl, rfl⟩
        farms := ⟨rfl, rfl, rfl⟩ }
      fun _ => .cons (fun x => by ring) .nil
  have := C143_theta S S h h'
  simpa only [one_smul] using this

/-- Two rivers, each with a tracer of its own: at the mouth of one the value is 1, at that of the other 0.  The tracer with value 1 at both
is the sum. -/
example : Bnds2 (m := square) 1 1
    (fun k => some { value := some fun _ => Jet.const (if k = 1 then 1 else 0) })
    (fun k => some { value := some fun _ => Jet.const (if k = 1 then 0 else 1) })
    (fun _ => some { value := some fun _ => Jet.const 1 }) := by
  intro k
  refine ⟨fun x => ?_, trivial, rfl, rfl, rfl, rfl, rfl, rfl, rfl, rfl⟩
  by_cases h : k = 1 <;> ext <;> simp [h, Jet.const]

/-! ### Where superposition ends -/

/-- Two cells in a row with the two ends of each as nodes; the outer end of the first is on the boundary. -/
noncomputable def row : Limiter.Mesh (Fin 2) ℕ (Fin 2) := ⟨[0, 1], fun c i => c + i, fun _ _ => 1 / 2, [(0, [0])]⟩

/-- A slope in the first cell towards a higher value in the second. -/
def up : Fin 2 → Fin 2 → ℝ := fun c i => if c = 0 then (if i = 0 then -1 else 1) else 1

/-- The opposite slope in the first cell, zero in the second. -/
def down : Fin 2 → Fin 2 → ℝ := fun c i => if c = 0 then (if i = 0 then 1 else -1) else 0

/-- C143: the slope limiter is not linear.  With it (option `use_limiter_for_tracers`) the sum of two limited tracers is not
the limited sum: tracers tagged by their source do not add up to the tracer of all sources. -/
theorem C143_limiter_violated :
    Limiter.apply false row row [0, 1] (fun c i => up c i + down c i) ≠
      fun c i => Limiter.apply false row row [0, 1] up c i + Limiter.apply false row row [0, 1] down c i := by
  intro h
  have := congrFun (congrFun h 0) 1
  simp only [Limiter.apply, Limiter.matrixMesh, Limiter.centroid, Limiter.Mesh.volume, Limiter.alphaOf, Limiter.alphaStep,
    Limiter.maxField, Limiter.minField, Limiter.cellMax, Limiter.cellMin, Limiter.faceMax, Limiter.faceMin, Limiter.faceMean,
    Fin.sum_univ_two, row, up, down, Fin.exists_fin_two, List.foldl_cons, List.foldl_nil] at this
  norm_num [up] at this

/-- Linear equations with wetting and drying, over a bed at level zero. -/
noncomputable def wetTerm : Swe.Term square := { Swe.exTerm with depth := ⟨cst square 0, false, true, cst square 0⟩ }

/-- C143: with `use_wetting_and_drying` the equations are not linear, even with `use_nonlinear_equations` off: the mass
term has the displacement of the bed in any case.  Here the elevations 1 and -1 have the sum 0, but not their mass terms. -/
theorem C143_wetdry_violated :
    Swe.massEta wetTerm (sc 1 1 (cst square 1) (cst square (-1))) (cst square 1) ≠
      1 * Swe.massEta wetTerm (cst square 1) (cst square 1) + 1 * Swe.massEta wetTerm (cst square (-1)) (cst square 1) := by
  have h1 : ∀ e : ℝ, ∀ f : Sc square, (∀ x, (f (.cell x)).v = e) → Swe.massEta wetTerm f (cst square 1) = max e 0 := by
    intro e f hf
    have hd : ∀ x, (wetTerm.depth.displacement (.cell x) (f (.cell x))).v = 1 / 2 * (|e| - e) := fun x => by
      simp only [wetTerm, Depth.displacement, if_true, Jet.mul_v, Jet.sub_v, Jet.sqrt, Jet.add_v, cst_apply, Jet.const_v, hf, zero_add,
        mul_zero, add_zero, Real.sqrt_mul_self_eq_abs]
    have hone : square.dx (fun _ => (1 : ℝ)) = 1 := by
      unfold Mesh.dx
      refine (sum_sqC fun _ => 1 / 6 * (1 : ℝ)).trans ?_
      norm_num
    have hc : ∀ t : ℝ, square.dx (fun _ => t) = t := fun t => by
      have := dx_eq (m := square) (a := t) (b := 0) (f := fun _ => 1) (g := fun _ => 0) (h := fun _ => t) fun _ => by ring
      rw [this, hone]
      ring
    simp only [Swe.massEta, hd, hf, cst_apply, Jet.const_v, mul_one, hc]
    rcases le_total 0 e with h | h
    · rw [abs_of_nonneg h, max_eq_left h]
      ring
    · rw [abs_of_nonpos h, max_eq_right h]
      ring
  rw [h1 0 _ fun x => by simp, h1 1 _ fun x => by simp, h1 (-1) _ fun x => by simp]
  norm_num

end Verif.Linear
