import Verif.Ale.Lemmas

/-!
C131: a tracer that is uniform stays uniform over any number of steps of the coupled time integrators, while the free
surface and with it the mesh moves.
-/

set_option linter.unusedSectionVars false

namespace Verif.Ale

open Verif.Dg Verif.Ext Verif.Tracer3

variable {H Q ι U W E2 U2 : Type} [Fintype H] [Fintype Q] [Fintype ι] [DecidableEq ι] [AddCommGroup U]
  {G : Geo H Q ι U W} {base : ι → Q → ℝ} {one : ι → ℝ} {k : ℝ}

/-! ### `CoupledTwoStageRK` -/

section

variable {P : Env H U W E2 U2 (RK.Ale (ι → ℝ) (ι → ℝ)) ι Q G}

/-- What holds between the steps. -/
structure Between {T : Type} (P : Env H U W E2 U2 T ι Q G) (s : St H U W E2 U2 T) : Prop where
  wet : Wet G.ref s.geo
  mesh : P.ale = true → s.geo = P.cg s.elev
  vertical : s.w = P.wSolve s.geo (s.uv + s.dav)

/-- The state when the right-hand side is assembled. -/
noncomputable def before (P : Env H U W E2 U2 (RK.Ale (ι → ℝ) (ι → ℝ)) ι Q G) (n i : ℕ) (s : StA H U W E2 U2 ι) :=
  P.meshVelocity i (P.mode2d n i (P.store i s))

theorem store_same (i : ℕ) (s : StA H U W E2 U2 ι) :
    (P.store i s).geo = s.geo ∧ (P.store i s).tr = s.tr ∧ (P.store i s).uv = s.uv ∧ (P.store i s).dav = s.dav ∧
      (P.store i s).w = s.w := by
  unfold Env.store
  split
  · split <;> exact ⟨rfl, rfl, rfl, rfl, rfl⟩
  · exact ⟨rfl, rfl, rfl, rfl, rfl⟩

theorem before_same (n i : ℕ) (s : StA H U W E2 U2 ι) :
    (before P n i s).geo = s.geo ∧ (before P n i s).tr = s.tr ∧ (before P n i s).uv = s.uv ∧
      (before P n i s).dav = s.dav ∧ (before P n i s).w = s.w ∧
      (before P n i s).elev = (P.swe n i (P.store i s)).1 := by
  have h := store_same (P := P) i s
  unfold before Env.meshVelocity Env.mode2d
  split <;> exact ⟨h.1, h.2.1, h.2.2.1, h.2.2.2.1, h.2.2.2.2, rfl⟩

/-- The elevation of the mesh after a stage. -/
noncomputable def moved (P : Env H U W E2 U2 (RK.Ale (ι → ℝ) (ι → ℝ)) ι Q G) (n i : ℕ) (s : StA H U W E2 U2 ι) : H → ℝ :=
  if P.ale then P.cg (P.swe n i (P.store i s)).1 else s.geo

/-- A stage after the right-hand side is assembled. -/
def after (P : Env H U W E2 U2 (RK.Ale (ι → ℝ) (ι → ℝ)) ι Q G) (n i : ℕ) (t : StA H U W E2 U2 ι) : StA H U W E2 U2 ι :=
  let t := P.couple (P.momentum n i (solveStage P (P.moveMesh t)))
  P.vertical (if i = 1 then (if P.implicit then P.momentumImpl n 2 (diffusion P n t) else t) else t)

theorem stage_eq (n i : ℕ) (s : StA H U W E2 U2 ι) :
    stage P n i s = after P n i (prepare P n i (before P n i s)) := rfl

theorem after_fields (n i : ℕ) (t : StA H U W E2 U2 ι) :
    (after P n i t).geo = (P.moveMesh t).geo ∧ (after P n i t).elev = t.elev ∧ (after P n i t).e0 = t.e0 ∧
      (after P n i t).w = P.wSolve (after P n i t).geo ((after P n i t).uv + (after P n i t).dav) ∧
      (after P n i t).tr.mu = t.tr.mu ∧ (after P n i t).tr.muOld = t.tr.muOld := by
  unfold after
  by_cases hi : i = 1
  · by_cases hm : P.implicit = true
    · simp only [hi, hm, if_true, Env.vertical, Env.momentumImpl, diffusion, Env.couple, Env.momentum, solveStage,
        Env.moveMesh, RK.Ale.solve, and_self]
    · simp only [hi, hm, if_true, Env.vertical, Env.couple, Env.momentum, solveStage,
        Env.moveMesh, RK.Ale.solve, and_self, Bool.false_eq_true, if_false]
  · simp only [hi, if_false, Env.vertical, Env.couple, Env.momentum, solveStage,
      Env.moveMesh, RK.Ale.solve, and_self]

/-- The fields after a stage. -/
theorem stage_fields (n i : ℕ) (s : StA H U W E2 U2 ι) :
    (stage P n i s).geo = moved P n i s ∧ (P.ale = true → (stage P n i s).geo = P.cg (stage P n i s).elev) ∧
      (stage P n i s).w = P.wSolve (stage P n i s).geo ((stage P n i s).uv + (stage P n i s).dav) ∧
      (stage P n i s).e0 = (before P n i s).e0 ∧
      (stage P n i s).tr.mu = (prepare P n i (before P n i s)).tr.mu ∧
      (stage P n i s).tr.muOld = (prepare P n i (before P n i s)).tr.muOld := by
  have hb := before_same (P := P) n i s
  have hg : (P.moveMesh (prepare P n i (before P n i s))).geo = moved P n i s := by
    unfold moved Env.moveMesh
    split
    · exact congrArg P.cg hb.2.2.2.2.2
    · exact hb.1
  rw [stage_eq]
  obtain ⟨h1, h2, h3, h4, h5, h6⟩ := after_fields (P := P) n i (prepare P n i (before P n i s))
  refine ⟨h1.trans hg, fun ha => ?_, h4, h3, h5, h6⟩
  rw [h1, h2]
  simp only [Env.moveMesh, ha, if_true]

theorem prepared_geo (n i : ℕ) (s : StA H U W E2 U2 ι) :
    (P.moveMesh (prepare P n i (before P n i s))).geo = moved P n i s := by
  have hb := before_same (P := P) n i s
  unfold moved Env.moveMesh
  split
  · exact congrArg P.cg hb.2.2.2.2.2
  · exact hb.1

/-- The tracer after a stage whose right-hand side is the mass of the constant on the new mesh. -/
theorem after_uniform (hG : Fits G base one) (hP : Works P one k) {i : ℕ}
    (hD : i = 1 ∧ P.implicit = true → Diffuses P) (n : ℕ) (t : StA H U W E2 U2 ι) (hw : Wet G.ref (P.moveMesh t).geo)
    (h : t.tr.mu = G.mass (P.moveMesh t).geo (k • one)) : (after P n i t).tr.sol = k • one := by
  have hsol : P.limited (P.moveMesh t).geo (P.massSolve (P.moveMesh t).geo t.tr.mu) = k • one := by
    rw [h, solve_one hG hP hw, limited_one hP]
  unfold after
  by_cases hi : i = 1
  · by_cases hm : P.implicit = true
    · simp only [hi, hm, if_true, Env.vertical, Env.momentumImpl, diffusion]
      refine (congrArg _ hsol).trans (diffuse_one hG hP (hD ⟨hi, hm⟩) n _ hw)
    · simp only [hi, hm, if_true, Bool.false_eq_true, if_false]
      exact hsol
  · simp only [hi, if_false]
    exact hsol

theorem stage_uniform (hG : Fits G base one) (hP : Works P one k) (hD : P.implicit = true → Diffuses P) (n i : ℕ)
    (s : StA H U W E2 U2 ι) (hm : Wet G.ref (moved P n i s))
    (h : (prepare P n i (before P n i s)).tr.mu = G.mass (moved P n i s) (k • one)) :
    (stage P n i s).tr.sol = k • one := by
  rw [stage_eq]
  refine after_uniform hG hP (fun h => hD h.2) n _ ?_ ?_
  · rw [prepared_geo]; exact hm
  · rw [prepared_geo]; exact h

/-- First stage: the right-hand side is the mass of the constant on the mesh of the first stage. -/
theorem first_mu (hG : Fits G base one) (hP : Works P one k) (n : ℕ) (s : StA H U W E2 U2 ι)
    (hs : Between P s) (hwet : Wet G.ref (moved P n 0 s)) (hu : s.tr.sol = k • one) :
    (prepare P n 0 (before P n 0 s)).tr.mu = G.mass (moved P n 0 s) (k • one) ∧
      (prepare P n 0 (before P n 0 s)).tr.muOld = G.mass s.geo (k • one) := by
  obtain ⟨he, hm, hw⟩ := hs
  obtain ⟨b1, b2, b3, b4, b5, -⟩ := before_same (P := P) n 0 s
  have hr := rhs_one hG hP n 0 (before P n 0 s) (by rw [b1]; exact he) (by rw [b1, b3, b4, b5]; exact hw)
  have hmu : (prepare P n 0 (before P n 0 s)).tr.mu =
      G.mass (before P n 0 s).geo s.tr.sol + P.dt • P.rhs n 0 (before P n 0 s) s.tr.sol := by
    simp only [prepare, if_true, RK.Ale.prep1, b2]
  have hgcl : ∀ x, P.dt * meshRate P (before P n 0 s) x = G.ref.jac (moved P n 0 s) x - G.ref.jac s.geo x := by
    intro x
    by_cases ha : P.ale = true
    · rw [← gcl_one (G := G) hG.ref P.dt hP.dt.ne']
      simp only [meshRate, before, Env.meshVelocity, Env.store, Env.mode2d, moved, ha, if_true, hm ha]
    · simp [meshRate, moved, ha]
  constructor
  · rw [hmu, hu, b1]
    funext j
    rw [Pi.add_apply, Pi.smul_apply, smul_eq_mul, hr, mass_one hG he, mass_one hG hwet]
    simp only [Finset.mul_sum]
    rw [← Finset.sum_add_distrib]
    refine Finset.sum_congr rfl fun x _ => ?_
    linear_combination (k * G.ref.wq x * base j x) * hgcl x
  · simp only [prepare, if_true, RK.Ale.prep1, b2, hu, b1]

theorem first_sol (hG : Fits G base one) (hP : Works P one k) (n : ℕ) (s : StA H U W E2 U2 ι)
    (hs : Between P s) (hwet : Wet G.ref (moved P n 0 s)) (hu : s.tr.sol = k • one) :
    (stage P n 0 s).tr.sol = k • one := by
  rw [stage_eq]
  refine after_uniform hG hP (i := 0) (fun h => absurd h.1 zero_ne_one) n _ ?_ ?_
  · rw [prepared_geo]; exact hwet
  · rw [prepared_geo]; exact (first_mu hG hP n s hs hwet hu).1

/-- Second stage: the right-hand side is the mass of the constant on the mesh of the new time. -/
theorem second_mu (hG : Fits G base one) (hP : Works P one k) (n : ℕ) (s : StA H U W E2 U2 ι)
    (hs : Between P s) (hwet0 : Wet G.ref (moved P n 0 s)) (hwet2 : Wet G.ref (moved P n 1 (stage P n 0 s)))
    (hu : s.tr.sol = k • one) :
    (prepare P n 1 (before P n 1 (stage P n 0 s))).tr.mu = G.mass (moved P n 1 (stage P n 0 s)) (k • one) := by
  obtain ⟨hmu0, hold0⟩ := first_mu hG hP n s hs hwet0 hu
  obtain ⟨f1, f2, f3, f4, f5, f6⟩ := stage_fields (P := P) n 0 s
  have hwet1 : Wet G.ref (stage P n 0 s).geo := f1 ▸ hwet0
  have hsol : (stage P n 0 s).tr.sol = k • one := first_sol hG hP n s hs hwet0 hu
  set t := stage P n 0 s with ht
  obtain ⟨b1, b2, b3, b4, b5, -⟩ := before_same (P := P) n 1 t
  have hr := rhs_one hG hP n 1 (before P n 1 t) (by rw [b1]; exact hwet1) (by rw [b1, b3, b4, b5]; exact f3)
  have hgcl : ∀ x, P.dt * meshRate P (before P n 1 t) x =
      2 * G.ref.jac (moved P n 1 t) x - G.ref.jac t.geo x - G.ref.jac s.geo x := by
    intro x
    by_cases ha : P.ale = true
    · have he0 : t.e0 = s.geo := by
        rw [f4]
        simp only [before, Env.meshVelocity, Env.store, Env.mode2d, ha, if_true, hs.mesh ha]
      rw [← gcl_two (G := G) hG.ref P.dt hP.dt.ne', f2 ha, ← he0]
      simp only [meshRate, before, Env.meshVelocity, Env.store, Env.mode2d, moved, ha, if_true, one_ne_zero, if_false]
    · have hg : t.geo = s.geo := by rw [f1]; simp [moved, ha]
      simp only [meshRate, moved, ha, hg, Bool.false_eq_true, if_false]
      ring
  have hmu : (prepare P n 1 (before P n 1 t)).tr.mu = (1 / 2 : ℝ) • t.tr.mu + (1 / 2 : ℝ) • t.tr.muOld +
      (1 / 2 : ℝ) • (P.dt • P.rhs n 1 (before P n 1 t) t.tr.sol) := by
    simp only [prepare, one_ne_zero, if_false, RK.Ale.prep2, b2]
  rw [hmu, f5, f6, hmu0, hold0, hsol]
  funext j
  simp only [Pi.add_apply, Pi.smul_apply, smul_eq_mul]
  rw [hr, mass_one hG hwet0, mass_one hG hs.wet, mass_one hG hwet2, ← f1]
  have : ∀ a b c d : ℝ, P.dt * a = 2 * d - b - c → 1 / 2 * (k * b) + 1 / 2 * (k * c) + 1 / 2 * (P.dt * (k * a)) = k * d := by
    intro a b c d h
    linear_combination (k / 2) * h
  refine this _ _ _ _ ?_
  simp only [Finset.mul_sum]
  rw [← Finset.sum_sub_distrib, ← Finset.sum_sub_distrib]
  refine Finset.sum_congr rfl fun x _ => ?_
  linear_combination (G.ref.wq x * base j x) * hgcl x

/-- C131 for one step of `CoupledTwoStageRK`. -/
theorem C131_step (hG : Fits G base one) (hP : Works P one k) (hD : P.implicit = true → Diffuses P) (n : ℕ)
    (s : StA H U W E2 U2 ι) (hs : Between P s) (hw0 : Wet G.ref (stage P n 0 s).geo)
    (hw1 : Wet G.ref (advance P n s).geo) (hu : s.tr.sol = k • one) :
    Between P (advance P n s) ∧ (stage P n 0 s).tr.sol = k • one ∧ (advance P n s).tr.sol = k • one := by
  have f := stage_fields (P := P) n 0 s
  have f' := stage_fields (P := P) n 1 (stage P n 0 s)
  have hm0 : Wet G.ref (moved P n 0 s) := f.1 ▸ hw0
  have hm1 : Wet G.ref (moved P n 1 (stage P n 0 s)) := f'.1 ▸ hw1
  exact ⟨⟨hw1, f'.2.1, f'.2.2.1⟩, stage_uniform hG hP hD n 0 s hm0 (first_mu hG hP n s hs hm0 hu).1,
    stage_uniform hG hP hD n 1 _ hm1 (second_mu hG hP n s hs hm0 hm1 hu)⟩

/-- C131: a uniform tracer stays uniform over any number of steps of `CoupledTwoStageRK`, with a fixed or a moving mesh,
with or without limiter and implicit diffusion, whatever the 2D solver and the momentum solver give, as long as
no node falls dry. -/
theorem C131_two_stage (hG : Fits G base one) (hP : Works P one k) (hD : P.implicit = true → Diffuses P)
    (s : StA H U W E2 U2 ι) (hu : s.tr.sol = k • one) (n : ℕ) (hwet : ∀ m ≤ n, Wet G.ref (run P s m).geo)
    (hwet1 : ∀ m < n, Wet G.ref (stage P m 0 (run P s m)).geo) :
    (run P s n).tr.sol = k • one ∧ G.tr (run P s n).geo (run P s n).tr.sol = cst _ k := by
  suffices h : Between P (run P s n) ∧ (run P s n).tr.sol = k • one from ⟨h.2, by rw [h.2, hG.one]⟩
  induction n with
  | zero =>
    refine ⟨⟨hwet 0 le_rfl, ?_, rfl⟩, hu⟩
    intro ha
    simp only [run, start, Env.vertical, Env.moveMesh, ha, if_true]
  | succ n ih =>
    have ih := ih (fun m hm => hwet m (by omega)) fun m hm => hwet1 m (by omega)
    have := C131_step hG hP hD n _ ih.1 (hwet1 n (by omega)) (hwet (n + 1) le_rfl) ih.2
    exact ⟨this.1, this.2.2⟩

end

/-! ### `CoupledLeapFrogAM3` -/

section

variable {P : Env H U W E2 U2 (RK.Leap (ι → ℝ) (ι → ℝ)) ι Q G} {mix : U2 → U2 → U2}

/-- What holds of the tracer between the steps. -/
structure Level (P : Env H U W E2 U2 (RK.Leap (ι → ℝ) (ι → ℝ)) ι Q G) (one : ι → ℝ) (k : ℝ)
    (s : StL H U W E2 U2 ι) : Prop where
  sol : s.tr.sol = k • one
  old : s.tr.old = k • one
  minv : s.tr.minv = P.massSolve s.geo

/-- Prediction of a uniform tracer. -/
theorem predict_uniform (hG : Fits G base one) (hP : Works P one k) (n : ℕ) (s : StL H U W E2 U2 ι)
    (hs : Between P s) (hl : Level P one k s) :
    (predict P n (still P s)).tr.sol = k • one ∧ (predict P n (still P s)).tr.old = k • one ∧
      (predict P n (still P s)).tr.minv = P.massSolve s.geo ∧
      (predict P n (still P s)).tr.msolOld = G.mass s.geo (k • one) := by
  have hgeo : (still P s).geo = s.geo := by unfold still; split <;> rfl
  have htr : (still P s).tr = s.tr := by unfold still; split <;> rfl
  have hr : P.rhs n 0 (still P s) (k • one) = 0 := by
    funext j
    rw [rhs_one hG hP n 0 (still P s) (by rw [hgeo]; exact hs.wet) (by
      have : (still P s).w = s.w ∧ (still P s).uv = s.uv ∧ (still P s).dav = s.dav := by
        unfold still; split <;> exact ⟨rfl, rfl, rfl⟩
      rw [this.1, this.2.1, this.2.2, hgeo]; exact hs.vertical)]
    have hm : ∀ x, meshRate P (still P s) x = 0 := by
      intro x
      unfold meshRate still
      split
      · exact rate_zero x
      · rfl
    simp [hm]
  have hrhs : (1 / 2 - 2 * RK.lfγ) • G.mass s.geo (k • one) + (1 / 2 + 2 * RK.lfγ) • G.mass s.geo (k • one) +
      (1 - 2 * RK.lfγ) • (P.dt • (0 : ι → ℝ)) = G.mass s.geo (k • one) := by
    rw [← add_smul, smul_zero, smul_zero, add_zero]
    rw [show (1 / 2 - 2 * RK.lfγ + (1 / 2 + 2 * RK.lfγ) : ℝ) = 1 by ring, one_smul]
  refine ⟨?_, ?_, ?_, ?_⟩
  · simp only [predict, RK.Leap.predict, htr, hl.sol, hl.old, hl.minv, hr, hgeo, hrhs]
    rw [solve_one hG hP hs.wet, limited_one hP]
  · simp only [predict, RK.Leap.predict, htr, hl.sol]
  · simp only [predict, RK.Leap.predict, htr, hl.minv]
  · simp only [predict, RK.Leap.predict, htr, hl.sol, hgeo]

/-- The state when the right-hand side of the correction is assembled. -/
noncomputable def leapBefore (P : Env H U W E2 U2 (RK.Leap (ι → ℝ) (ι → ℝ)) ι Q G) (mix : U2 → U2 → U2) (n : ℕ)
    (p : StL H U W E2 U2 ι) : StL H U W E2 U2 ι :=
  let c := P.couple (P.momentum n 0 p)
  P.vertical (halfCouple P mix c.uv2 (leapMode2d P n c))

/-- The step after that. -/
def leapAfter (P : Env H U W E2 U2 (RK.Leap (ι → ℝ) (ι → ℝ)) ι Q G) (n : ℕ) (t : StL H U W E2 U2 ι) :
    StL H U W E2 U2 ι :=
  let t := P.couple (P.momentum n 1 (correct P (P.moveMesh t)))
  P.vertical (if P.implicit then P.momentumImpl n 2 (leapDiffusion P n t) else t)

theorem leapAdvance_eq (n : ℕ) (s : StL H U W E2 U2 ι) :
    leapAdvance P mix n s = leapAfter P n (evalRhs P n (leapBefore P mix n (predict P n (still P s)))) := rfl

/-- The elevation of the new mesh. -/
def leapNew (P : Env H U W E2 U2 (RK.Leap (ι → ℝ) (ι → ℝ)) ι Q G) (n : ℕ) (p : StL H U W E2 U2 ι) : H → ℝ :=
  P.cg (P.swe n 0 (P.couple (P.momentum n 0 p))).1

theorem leapBefore_fields (n : ℕ) (p : StL H U W E2 U2 ι) :
    (leapBefore P mix n p).geo = p.geo ∧ (leapBefore P mix n p).tr = p.tr ∧
      (leapBefore P mix n p).w = P.wSolve p.geo ((leapBefore P mix n p).uv + (leapBefore P mix n p).dav) ∧
      P.cg (leapBefore P mix n p).elev = leapNew P n p ∧
      (P.ale = true → (leapBefore P mix n p).ws = fun h => (P.cg p.elev h + -leapNew P n p h) * (-1 / P.dt / 1)) := by
  unfold leapBefore leapMode2d leapNew
  cases P.ale
  · simp [halfCouple, Env.vertical, Env.couple, Env.momentum, Env.mode2d]
  · simp [halfCouple, Env.vertical, Env.couple, Env.momentum, Env.mode2d]

/-- The right-hand side of the correction. -/
theorem correct_rhs (hG : Fits G base one) (hP : Works P one k) (n : ℕ) (p : StL H U W E2 U2 ι)
    (hwet : Wet G.ref p.geo) (hw : Wet G.ref (P.moveMesh (evalRhs P n (leapBefore P mix n p))).geo)
    (hmesh : P.ale = true → p.geo = P.cg p.elev) (hsol : p.tr.sol = k • one)
    (hold : p.tr.msolOld = G.mass p.geo (k • one)) :
    (evalRhs P n (leapBefore P mix n p)).tr.rhs + (evalRhs P n (leapBefore P mix n p)).tr.msolOld =
      G.mass (P.moveMesh (evalRhs P n (leapBefore P mix n p))).geo (k • one) := by
  obtain ⟨b1, b2, b3, b4, b5⟩ := leapBefore_fields (P := P) (mix := mix) n p
  have hgeo : (P.moveMesh (evalRhs P n (leapBefore P mix n p))).geo = if P.ale then leapNew P n p else p.geo := by
    unfold Env.moveMesh
    split
    · exact b4
    · exact b1
  have hr := rhs_one hG hP n 1 (leapBefore P mix n p) (by rw [b1]; exact hwet) (by rw [b1]; exact b3)
  have hgcl : ∀ x, P.dt * meshRate P (leapBefore P mix n p) x =
      G.ref.jac (P.moveMesh (evalRhs P n (leapBefore P mix n p))).geo x - G.ref.jac p.geo x := by
    intro x
    rw [hgeo]
    by_cases ha : P.ale = true
    · rw [if_pos ha, ← gcl_one (G := G) hG.ref P.dt hP.dt.ne']
      unfold meshRate
      rw [if_pos ha, b5 ha, ← hmesh ha]
      congr 2
      funext h
      ring
    · simp [meshRate, ha]
  have hrhs : (evalRhs P n (leapBefore P mix n p)).tr.rhs = P.dt • P.rhs n 1 (leapBefore P mix n p) (k • one) := by
    simp only [evalRhs, RK.Leap.evalRhs, b2, hsol]
  have hms : (evalRhs P n (leapBefore P mix n p)).tr.msolOld = G.mass p.geo (k • one) := by
    simp only [evalRhs, RK.Leap.evalRhs, b2, hold]
  rw [hrhs, hms]
  funext j
  rw [Pi.add_apply, Pi.smul_apply, smul_eq_mul, hr, mass_one hG hwet, mass_one hG hw]
  simp only [Finset.mul_sum]
  rw [← Finset.sum_add_distrib]
  refine Finset.sum_congr rfl fun x _ => ?_
  linear_combination (k * G.ref.wq x * base j x) * hgcl x

theorem leapAfter_fields (n : ℕ) (t : StL H U W E2 U2 ι) :
    (leapAfter P n t).geo = (P.moveMesh t).geo ∧ (leapAfter P n t).elev = t.elev ∧
      (leapAfter P n t).w = P.wSolve (leapAfter P n t).geo ((leapAfter P n t).uv + (leapAfter P n t).dav) ∧
      (leapAfter P n t).tr.old = t.tr.old ∧ (leapAfter P n t).tr.minv = P.massSolve (P.moveMesh t).geo := by
  unfold leapAfter
  by_cases hm : P.implicit = true
  · simp only [hm, if_true, Env.vertical, Env.momentumImpl, leapDiffusion, Env.couple, Env.momentum, correct,
      Env.moveMesh, RK.Leap.correct, and_self]
  · simp only [hm, Bool.false_eq_true, if_false, Env.vertical, Env.couple, Env.momentum, correct,
      Env.moveMesh, RK.Leap.correct, and_self]

theorem leapAfter_uniform (hG : Fits G base one) (hP : Works P one k) (hD : P.implicit = true → Diffuses P) (n : ℕ)
    (t : StL H U W E2 U2 ι) (hw : Wet G.ref (P.moveMesh t).geo)
    (h : t.tr.rhs + t.tr.msolOld = G.mass (P.moveMesh t).geo (k • one)) : (leapAfter P n t).tr.sol = k • one := by
  have hsol : P.limited (P.moveMesh t).geo (P.massSolve (P.moveMesh t).geo (t.tr.rhs + t.tr.msolOld)) = k • one := by
    rw [h, solve_one hG hP hw, limited_one hP]
  unfold leapAfter
  by_cases hm : P.implicit = true
  · simp only [hm, if_true, Env.vertical, Env.momentumImpl, leapDiffusion]
    refine (congrArg _ hsol).trans (diffuse_one hG hP (hD hm) n _ hw)
  · simp only [hm, Bool.false_eq_true, if_false]
    exact hsol

/-- C131 for one step of `CoupledLeapFrogAM3`. -/
theorem C131_leap_step (hG : Fits G base one) (hP : Works P one k) (hD : P.implicit = true → Diffuses P) (n : ℕ)
    (s : StL H U W E2 U2 ι) (hs : Between P s) (hw : Wet G.ref (leapAdvance P mix n s).geo) (hl : Level P one k s) :
    Between P (leapAdvance P mix n s) ∧ Level P one k (leapAdvance P mix n s) := by
  obtain ⟨h1, h2, -, h4⟩ := predict_uniform hG hP n s hs hl
  have hgeo : (predict P n (still P s)).geo = s.geo := by simp only [predict, still]; split <;> rfl
  have helev : (predict P n (still P s)).elev = s.elev := by simp only [predict, still]; split <;> rfl
  rw [leapAdvance_eq, (leapAfter_fields _ _).1] at hw
  have c1 := correct_rhs (mix := mix) hG hP n (predict P n (still P s)) (by rw [hgeo]; exact hs.wet) hw
    (fun ha => by rw [hgeo, helev]; exact hs.mesh ha) h1 (by rw [hgeo]; exact h4)
  have b := leapBefore_fields (P := P) (mix := mix) n (predict P n (still P s))
  rw [leapAdvance_eq]
  set t := evalRhs P n (leapBefore P mix n (predict P n (still P s))) with ht
  obtain ⟨a1, a2, a3, a4, a5⟩ := leapAfter_fields (P := P) n t
  refine ⟨⟨by rw [a1]; exact hw, fun ha => ?_, a3⟩, ⟨leapAfter_uniform hG hP hD n t hw c1, ?_, by rw [a5, a1]⟩⟩
  · rw [a1, a2]
    simp only [Env.moveMesh, ha, if_true]
  · rw [a4, ht]
    simp only [evalRhs, RK.Leap.evalRhs, b.2.1, h2]

/-- C131: a uniform tracer stays uniform over any number of steps of `CoupledLeapFrogAM3`, under the same conditions;
`mix` is the velocity between the time levels. -/
theorem C131_leap_frog (hG : Fits G base one) (hP : Works P one k) (hD : P.implicit = true → Diffuses P)
    (s : StL H U W E2 U2 ι) (hu : s.tr.sol = k • one) (n : ℕ) (hwet : ∀ m ≤ n, Wet G.ref (leapRun P mix s m).geo) :
    (leapRun P mix s n).tr.sol = k • one ∧ G.tr (leapRun P mix s n).geo (leapRun P mix s n).tr.sol = cst _ k := by
  suffices h : Between P (leapRun P mix s n) ∧ Level P one k (leapRun P mix s n) from
    ⟨h.2.sol, by rw [h.2.sol, hG.one]⟩
  induction n with
  | zero =>
    have hw := hwet 0 le_rfl
    simp only [leapRun, leapStart, start, Env.vertical, Env.moveMesh, RK.Leap.initialize] at hw ⊢
    refine ⟨⟨hw, ?_, rfl⟩, ⟨hu, hu, ?_⟩⟩
    · intro ha
      simp only [ha, if_true]
    · cases P.ale <;> rfl
  | succ n ih =>
    have ih := ih fun m hm => hwet m (by omega)
    exact C131_leap_step hG hP hD n _ ih.1 (hwet (n + 1) le_rfl) ih.2

end

/-- C131: the mesh reaches from the bed to the free surface, the mesh velocity is that of the surface at the top and zero
at the bed, and the nodes move with the mesh velocity. -/
theorem C131_mesh_ends (bath eta ws : ℝ) (hb : bath ≠ 0) :
    newZ bath eta 0 = eta ∧ newZ bath eta (-bath) = -bath ∧ newW bath ws 0 = ws ∧ newW bath ws (-bath) = 0 ∧
      ∀ dt zref, newZ bath (eta + dt * ws) zref = newZ bath eta zref + dt * newW bath ws zref := by
  unfold newZ newW
  refine ⟨?_, ?_, ?_, ?_, fun dt zref => ?_⟩ <;> field_simp <;> ring

example : newZ 2 (1 / 2) 0 = 1 / 2 ∧ newZ 2 (1 / 2) (-2) = -2 :=
  ⟨(C131_mesh_ends 2 (1 / 2) 0 (by norm_num)).1, (C131_mesh_ends 2 (1 / 2) 0 (by norm_num)).2.1⟩

end Verif.Ale
