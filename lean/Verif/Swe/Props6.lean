import Verif.Swe.Props5

/-!
C83: the conservative tracer equation and the free surface equation.
-/

namespace Verif.Swe

open Verif.Dg

variable {m : Mesh 2}

/-- C83: for a velocity and a depth that are continuous across facets, with closed boundaries along which the water flows,
the conservative tracer equation moves a uniform concentration `C` exactly as the free surface equation moves water: the
advection of `q = C H` is `C` times the divergence term, for every test function. -/
theorem C83_consistent (T : Term m) (V : Tracer2.Term m) (F : Tracer2.Flow m) (bc : ℕ → Option (Funcs m)) (uv : Vc m)
    (eta : Sc m) (uvOld : Vc m) (phi : Sc m) (C : ℝ)
    (hbc : ∀ k, IsClosed (bc k)) (hu : T.uDg = true) (hflat : m.Flat)
    (hF : F.uv = some uv) (hf : F.factor = cst m 1)
    (hc : ∀ s i, (uv i (.plus s)).v = (uv i (.minus s)).v)
    (he : ∀ s, (eta (.plus s)).v = (eta (.minus s)).v)
    (hh : ∀ s, (totalH T eta (.plus s)).v = (totalH T eta (.minus s)).v)
    (hcont : (V.dg = true ∧ T.etaDg = true) ∨ ∀ s, (phi (.plus s)).v = (phi (.minus s)).v)
    (hwall : ∀ b, ∑ i, (uv i (.bnd b)).v * m.nb b i = 0) :
    Tracer2.consAdvection V F (some fun _ => none) (cst m C * totalH T eta) phi = C * huDiv T bc uv eta uvOld eta phi := by
  have hcor : Tracer2.corrected F uv = uv := by
    funext i
    simp only [Tracer2.corrected, hf, cst_one_mul]
  have hv : ∀ b, volFlux T bc uv eta uvOld eta (m.marker b) b = 0 := by
    intro b
    unfold volFlux
    rw [openFuncs_closed (hbc _)]
  have hb : ∀ b, Tracer2.consBndFlux V F uv (fun _ => none) (cst m C * totalH T eta) (m.marker b) b = 0 := by
    intro b
    have := hwall b
    simp only [Fin.sum_univ_two] at this
    simp only [Tracer2.consBndFlux, this, mul_zero]
  have hj : ∀ s, jump (cst m C * totalH T eta) s = 0 := by
    intro s
    simp only [jump, Pi.mul_apply, Jet.mul_v, hh s, cst_apply, Jet.const_v, sub_self]
  unfold Tracer2.consAdvection huDiv
  simp only [hF, hcor, hu, if_true, bndLoop_eq, hv, hb, hj, zero_mul, mul_zero, Finset.sum_const_zero, add_zero, dS_zero,
    ite_self]
  have ex : (m.dx fun x => -((phi (.cell x)).g 0 * (uv 0 (.cell x)).v * ((cst m C * totalH T eta) (.cell x)).v +
      (phi (.cell x)).g 1 * (uv 1 (.cell x)).v * ((cst m C * totalH T eta) (.cell x)).v)) =
      C * m.dx fun x => -∑ i, (phi (.cell x)).g i * ((totalH T eta (.cell x)).v * (uv i (.cell x)).v) := by
    rw [← dx_smul]
    refine dx_congr fun x => ?_
    simp only [Fin.sum_univ_two, Pi.mul_apply, Jet.mul_v, cst_apply, Jet.const_v]
    ring
  have es : (if V.dg = true then m.dS (fun s => Tracer2.consFlux V uv (cst m C * totalH T eta) s 0 * jumpN phi s 0 +
        Tracer2.consFlux V uv (cst m C * totalH T eta) s 1 * jumpN phi s 1) else 0) =
      C * (if T.etaDg = true then m.dS (fun s => ∑ i, jumpN phi s i *
          (avg (totalH T eta) s * (avg (uv i) s + Real.sqrt (T.g / avg (totalH T eta) s) * jumpN eta s i))) else 0) := by
    have hje : ∀ s i, jumpN eta s i = 0 := fun s i => by simp only [jumpN, he s, hflat s]; ring
    rcases hcont with ⟨h1, h2⟩ | h
    · simp only [h1, h2, if_true]
      rw [← dS_smul]
      refine dS_congr fun s => ?_
      simp only [Tracer2.consFlux, Fin.sum_univ_two, hje s, mul_zero, add_zero, avg, Pi.mul_apply, Jet.mul_v, cst_apply,
        Jet.const_v, hh s, hc s]
      ring
    · have hjp : ∀ s i, jumpN phi s i = 0 := fun s i => by simp only [jumpN, h s, hflat s]; ring
      simp only [hjp, mul_zero, zero_mul, Finset.sum_const_zero, add_zero, dS_zero, ite_self]
  rw [ex, es]
  ring

/-- The hypotheses hold for water at rest with a tilted surface. -/
example (V : Tracer2.Term square) (F : Tracer2.Flow square) (hV : V.dg = true) (hF : F.uv = some (rest square))
    (hf : F.factor = cst square 1) (phi : Sc square) :
    Tracer2.consAdvection V F (some fun _ => none)
      (cst square 3 * totalH exTerm (squareField ⟨0, 1, 0, 0, 0, 0⟩ ⟨0, 1, 0, 0, 0, 0⟩)) phi =
      3 * huDiv exTerm (fun _ => none) (rest square) (squareField ⟨0, 1, 0, 0, 0, 0⟩ ⟨0, 1, 0, 0, 0, 0⟩) (rest square)
        (squareField ⟨0, 1, 0, 0, 0, 0⟩ ⟨0, 1, 0, 0, 0, 0⟩) phi :=
  C83_consistent exTerm V F _ _ _ _ phi 3 (fun k l h => by cases h) rfl square_flat hF hf (fun s i => rfl)
    (fun s => by cases s <;> rfl) (fun s => rfl) (Or.inl ⟨hV, rfl⟩) (fun b => by simp [rest])

/-- Water of depth one plus the elevation. -/
noncomputable def shallow : Term square :=
  { exTerm with depth := ⟨cst square 1, true, false, cst square 0⟩, nonlinear := true }

/-- C83 (violated): a jump of the surface moves water through the facet, but no tracer: next to water at rest with
different levels on both sides the free surface equation lowers the higher side while the conservative tracer
equation leaves `q = H` alone.  A uniform concentration of one does not stay uniform. -/
theorem C83_violated (V : Tracer2.Term square) (F : Tracer2.Flow square) (hF : F.uv = some (rest square))
    (h1 : F.uvP1 = none) (h2 : F.uvMag = none) :
    Tracer2.consAdvection V F (some fun _ => none) (totalH shallow (twoLevels 1 0)) (twoLevels 1 0) = 0 ∧
    huDiv shallow (fun _ => none) (rest square) (twoLevels 1 0) (rest square) (twoLevels 1 0) (twoLevels 1 0) < 0 := by
  have hcor : ∀ i x, (Tracer2.corrected F (rest square) i x).v = 0 := by
    intro i x
    simp [Tracer2.corrected, rest]
  have hr : ∀ i x, (rest square i x).v = 0 := fun _ _ => rfl
  constructor
  · unfold Tracer2.consAdvection
    simp only [hF, h1, h2, Tracer2.consGamma, Tracer2.unAv, avg, Tracer2.consFlux, Tracer2.consBndFlux, hcor, bndLoop_eq,
      mul_zero, zero_mul, add_zero, neg_zero, abs_zero, dx_zero, dS_zero, ite_self, Finset.sum_const_zero]
  · have hcell : CellConst (twoLevels 1 0) := by
      intro x i
      fin_cases i <;> cases x <;> simp [twoLevels, squareField, Quad.jet]
    rw [C76_local shallow (fun _ => none) (rest square) (twoLevels 1 0) (rest square) (twoLevels 1 0) (twoLevels 1 0) rfl rfl
      square_flat square_unit.1 hcell]
    have hd : ∀ x e, depthAt shallow x e = 1 + e := by
      intro x e
      simp [depthAt, Depth.total, Depth.displacement, shallow]
    have hv : ∀ b, volFlux shallow (fun _ => none) (rest square) (twoLevels 1 0) (rest square) (twoLevels 1 0)
        (square.marker b) b = 0 := fun b => rfl
    simp only [hv, zero_mul, mul_zero, Finset.sum_const_zero, sub_zero]
    have ep : ∀ s : square.S, (twoLevels 1 0 (.plus s)).v = 1 := by
      intro s; cases s <;> simp [twoLevels, squareField, Quad.jet]
    have em : ∀ s : square.S, (twoLevels 1 0 (.minus s)).v = 0 := by
      intro s; cases s <;> simp [twoLevels, squareField, Quad.jet]
    have key : ∀ s : square.S, facetFlux shallow (rest square) (twoLevels 1 0) (twoLevels 1 0) s *
        ((twoLevels 1 0 (.plus s)).v - (twoLevels 1 0 (.minus s)).v) = 3 / 2 * Real.sqrt (10 / (3 / 2)) := by
      intro s
      have hg : shallow.g = 10 := rfl
      simp only [facetFlux, hd, ep, em, hr, hg]
      norm_num
    rw [dS_congr key]
    have hpos : 0 < Real.sqrt (10 / (3 / 2)) := Real.sqrt_pos.2 (by norm_num)
    have : square.dS (fun _ => 3 / 2 * Real.sqrt (10 / (3 / 2))) = Real.sqrt 2 * (3 / 2 * Real.sqrt (10 / (3 / 2))) := by
      refine Eq.trans (sum_sqS fun s => sqWS s * (3 / 2 * Real.sqrt (10 / (3 / 2)))) ?_
      simp only [sqWS]
      ring
    rw [this]
    have h3 : 0 < Real.sqrt 2 := Real.sqrt_pos.2 (by norm_num)
    have := mul_pos h3 hpos
    nlinarith

end Verif.Swe
