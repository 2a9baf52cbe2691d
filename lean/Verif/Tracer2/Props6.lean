import Verif.Tracer2.Props

/-!
C72 for continuous tracer elements (`tracer_element_family = 'cg'`, solver2d.py:347-350), whose facet terms are left
out (tracer_eq_2d.py:161), with the discontinuous velocities of the element families `dg-dg` and `dg-cg`.
-/

namespace Verif.Tracer2

open Verif.Dg

variable {m : Mesh 2}

/-- C72: without facet terms a constant tracer has, for every test function, the tendency of the jumps of the
normal velocity. -/
theorem C72_continuous_residual (T : Term m) (F : Flow m) (bc : ℕ → Option (BFuncs m)) (u : Vc m) (test : Sc m) (k : ℝ)
    (hu : F.uv = some u) (hdg : T.dg = false)
    (hval : ∀ j f, bc j = some f → ValueIs f k)
    (hno : ∀ j f, bc j = some f → NoVelocity f)
    (hdiv : DivExact m fun i => F.factor * u i * test) :
    advection T F bc (cst m k) test = k * m.dS fun s => jumpV (fun i => F.factor * u i * test) s := by
  have hres := C72_constant { T with dg := true } F bc u test k hu rfl hval hno hdiv
  rw [advection_eq _ F bc u _ test hu] at hres ⊢
  simp only [hdg, if_true, Bool.false_eq_true, if_false] at hres ⊢
  have hlf : (if T.lf = true then m.dS fun s => 1 / 2 * |unAv (corrected F u) s| * F.lfFactor *
      (jump test s * jump (cst m k) s) else 0) = 0 := by
    split
    · rw [← dS_zero (m := m)]; exact dS_congr fun s => by simp [jump]
    · rfl
  have hs : m.dS (advFacet { T with dg := true } (corrected F u) (cst m k) test) =
      k * m.dS fun s => jumpV (fun i => F.factor * u i * test) s := by
    unfold Mesh.dS
    rw [Finset.mul_sum]
    refine Finset.sum_congr rfl fun s _ => ?_
    unfold advFacet corrected
    simp only [cst_apply, Jet.const_v]
    ring
  rw [hlf, hs] at hres
  have hb : (∑ b, m.wB b * (advBndFlux T F (corrected F u) bc (cst m k) (m.marker b) b * (test (.bnd b)).v)) =
      ∑ b, m.wB b * (advBndFlux { T with dg := true } F (corrected F u) bc (cst m k) (m.marker b) b *
        (test (.bnd b)).v) := rfl
  linarith

/-- Water that moves to the right in the lower triangle and rests in the upper one. -/
noncomputable def exShear : Flow square :=
  { exFlow with uv := some fun i => squareField ⟨if i = 0 then 1 else 0, 0, 0, 0, 0, 0⟩ ⟨0, 0, 0, 0, 0, 0⟩ }

/-- C72: with continuous tracer elements and a velocity whose normal component jumps, a constant tracer does not stay
constant: its total changes. -/
theorem C72_continuous_violated (k : ℝ) (hk : k ≠ 0) :
    advection { exTerm with dg := false } exShear (fun _ => none) (cst square k) (cst square 1) ≠ 0 := by
  have hf : (fun i => exShear.factor * (squareField ⟨if i = 0 then 1 else 0, 0, 0, 0, 0, 0⟩ ⟨0, 0, 0, 0, 0, 0⟩) *
      cst square 1) = fun i : Fin 2 => squareField ⟨if i = 0 then 1 else 0, 0, 0, 0, 0, 0⟩ ⟨0, 0, 0, 0, 0, 0⟩ := by
    funext i
    change cst square 1 * _ * cst square 1 = _
    rw [cst_one_mul]
    funext x
    apply Jet.ext
    · simp
    · funext j; simp
  rw [C72_continuous_residual _ exShear _ _ (cst square 1) k rfl rfl (by simp) (by simp)
    (by rw [hf]; exact square_divExact _ _), hf]
  have e := sum_sqS fun s => sqWS s * jumpV
    (fun i : Fin 2 => squareField ⟨if i = 0 then 1 else 0, 0, 0, 0, 0, 0⟩ ⟨0, 0, 0, 0, 0, 0⟩) s
  have h2 : Real.sqrt 2 ≠ 0 := by positivity
  have hv : (square.dS fun s => jumpV
      (fun i : Fin 2 => squareField ⟨if i = 0 then 1 else 0, 0, 0, 0, 0, 0⟩ ⟨0, 0, 0, 0, 0, 0⟩) s) = 1 := by
    refine e.trans ?_
    simp only [jumpV, Fin.sum_univ_two, squareField, Quad.jet, sqWS, square]
    simp
    field_simp
    norm_num
  rw [hv]
  simpa using hk

end Verif.Tracer2
