import Verif.Ale.Props2
import Verif.Contract.Lemmas

/-!
C132: how much tracer there is after any number of steps of the coupled time integrators.
-/

set_option linter.unusedSectionVars false

namespace Verif.Ale

open Verif.Dg Verif.Ext Verif.Tracer3 Verif.Contract

/-! ### The residual is linear in the test function -/

section Linear

variable {e : Mesh3}

theorem lin_v (x : Pt e.m) : IsLin fun t : Sc e.m => (t x).v := ⟨fun _ _ => rfl, fun _ _ => rfl⟩

theorem lin_g (x : Pt e.m) (i : Fin 3) : IsLin fun t : Sc e.m => (t x).g i := ⟨fun _ _ => rfl, fun _ _ => rfl⟩

theorem lin_jump (s : e.m.S) : IsLin fun t : Sc e.m => jump t s := (lin_v _).sub (lin_v _)

theorem lin_jumpN (s : e.m.S) (i : Fin 3) : IsLin fun t : Sc e.m => jumpN t s i :=
  ((lin_v _).right _).add ((lin_v _).right _)

theorem lin_facetDiv (uv : Vc e.m) (s : e.m.S) : IsLin fun t : Sc e.m => facetDiv uv t s :=
  (((lin_jumpN s 0).left _).add ((lin_jumpN s 1).left _)).add ((lin_jumpN s 2).left _)

variable {V : Type} [AddCommGroup V] [Module ℝ V]

theorem lin_dSh {F : V → e.m.S → ℝ} (h : ∀ s, IsLin fun t => F t s) : IsLin fun t => e.dSh (F t) :=
  IsLin.dS fun s => (h s).ite IsLin.zero

theorem lin_dSv {F : V → e.m.S → ℝ} (h : ∀ s, IsLin fun t => F t s) : IsLin fun t => e.dSv (F t) :=
  IsLin.dS fun s => IsLin.zero.ite (h s)

theorem lin_dsurf {F : V → e.m.B → ℝ} (h : ∀ s, IsLin fun t => F t s) : IsLin fun t => e.dsurf (F t) :=
  IsLin.dB fun b => (h b).ite IsLin.zero

theorem lin_dbottom {F : V → e.m.B → ℝ} (h : ∀ s, IsLin fun t => F t s) : IsLin fun t => e.dbottom (F t) :=
  IsLin.dB fun b => (h b).ite IsLin.zero

theorem lin_sideLoop {F : V → ℕ → e.m.B → ℝ} (h : ∀ k b, IsLin fun t => F t k b) : IsLin fun t => e.sideLoop (F t) := by
  simp only [sideLoop_eq]
  exact IsLin.dB fun b => (h _ b).ite IsLin.zero

variable (T : Term e) (F : Fields e) (bc : ℕ → Option (BFuncs e)) (c : Sc e.m)

theorem lin_hAdvection : IsLin fun t : Sc e.m => hAdvection T F bc c t := by
  unfold hAdvection
  cases F.uv with
  | none => exact IsLin.zero
  | some uv =>
    refine IsLin.neg (((IsLin.dx fun x => ((IsLin.sum fun i => (lin_g _ i).left _).left _).neg).add ?_).add ?_)
    · refine IsLin.ite ?_ IsLin.zero
      refine ((((lin_dSv fun s => (lin_facetDiv _ s).left _).add (lin_dSh fun s => (lin_facetDiv _ s).left _)).add ?_).add ?_)
      · exact ((lin_dSv fun s => ((lin_jump s).right _).left _).add
          (lin_dSh fun s => ((lin_jump s).right _).left _)).ite IsLin.zero
      · refine lin_sideLoop fun k b => ?_
        unfold sideTerm
        cases bc k with
        | none => exact IsLin.zero
        | some f => exact (lin_v _).left _
    · exact (lin_dsurf fun b => (lin_v _).left _).ite IsLin.zero

theorem lin_vAdvection : IsLin fun t : Sc e.m => vAdvection T F c t := by
  unfold vAdvection
  cases F.w with
  | none => exact IsLin.zero
  | some w =>
    refine IsLin.neg (((IsLin.dx fun x => ((lin_g _ 2).left _).neg).add ?_).add (lin_dsurf fun b => (lin_v _).left _))
    refine IsLin.ite ?_ IsLin.zero
    exact (lin_dSh fun s => (lin_jumpN s 2).left _).add
      ((lin_dSh fun s => ((lin_jump s).right _).left _).ite IsLin.zero)

theorem lin_hDiffusion : IsLin fun t : Sc e.m => hDiffusion T F c t := by
  unfold hDiffusion
  cases F.diffH with
  | none => exact IsLin.zero
  | some mu =>
    refine IsLin.neg ((((IsLin.dx fun x => ((lin_g _ 0).right _).add ((lin_g _ 1).right _)).add ?_).add
      (lin_dbottom fun b => ((lin_v _).left _).neg)).add (lin_dsurf fun b => ((lin_v _).left _).neg))
    refine IsLin.ite ?_ IsLin.zero
    refine IsLin.dS fun s => ?_
    have av : ∀ i, IsLin fun t : Sc e.m => (1 / 2 : ℝ) * ((mu (.plus s)).v * (t (.plus s)).g i +
        (mu (.minus s)).v * (t (.minus s)).g i) := fun i => (((lin_g _ i).left _).add ((lin_g _ i).left _)).left _
    exact ((((lin_jumpN s 0).right _).add ((lin_jumpN s 1).right _)).left _).sub
      (((av 0).right _).add ((av 1).right _)) |>.sub (((lin_jumpN s 0).right _).add ((lin_jumpN s 1).right _))

theorem lin_vDiffusion : IsLin fun t : Sc e.m => vDiffusion T F c t := by
  unfold vDiffusion
  cases F.diffV with
  | none => exact IsLin.zero
  | some mu =>
    refine IsLin.neg ((IsLin.dx fun x => (lin_g _ 2).right _).add (IsLin.ite ?_ IsLin.zero))
    refine lin_dSh fun s => ?_
    have av : IsLin fun t : Sc e.m => (1 / 2 : ℝ) * ((mu (.plus s)).v * (t (.plus s)).g 2 +
        (mu (.minus s)).v * (t (.minus s)).g 2) := (((lin_g _ 2).left _).add ((lin_g _ 2).left _)).left _
    exact ((((lin_jumpN s 2).right _).left _).sub (av.right _)).sub ((lin_jumpN s 2).right _)

theorem lin_source : IsLin fun t : Sc e.m => source F t := by
  unfold source
  cases F.source with
  | none => exact IsLin.zero
  | some r => exact IsLin.dx fun x => (lin_v _).left _

theorem lin_residual : IsLin fun t : Sc e.m => residual T F bc c t :=
  ((((lin_hAdvection T F bc c).add (lin_vAdvection T F c)).add (lin_hDiffusion T F c)).add (lin_vDiffusion T F c)).add
    (lin_source F)

end Linear

variable {H Q ι U W E2 U2 : Type} [Fintype H] [Fintype Q] [Fintype ι] [DecidableEq ι] [AddCommGroup U]
  {G : Geo H Q ι U W} {base : ι → Q → ℝ} {one : ι → ℝ}

/-- The integral of the tracer over the mesh. -/
def amount (G : Geo H Q ι U W) (eta : H → ℝ) (u : ι → ℝ) : ℝ := (G.mesh eta).m.dx fun x => (G.tr eta u (.cell x)).v

/-- The total of a vector of integrals against the test functions. -/
def total (one r : ι → ℝ) : ℝ := ∑ i, one i * r i

theorem total_add (r q : ι → ℝ) : total one (r + q) = total one r + total one q := by
  simp only [total, Pi.add_apply, mul_add, Finset.sum_add_distrib]

theorem total_smul (a : ℝ) (r : ι → ℝ) : total one (a • r) = a * total one r := by
  simp only [total, Pi.smul_apply, smul_eq_mul, Finset.mul_sum]
  exact Finset.sum_congr rfl fun i _ => by ring

/-- The test functions add up to the constant. -/
theorem sum_test (hG : Fits G base one) (eta : H → ℝ) : (∑ i, one i • G.test eta i) = cst (G.mesh eta).m 1 := by
  have hz : G.tr eta 0 = 0 := by
    have := hG.one eta 0
    rw [zero_smul] at this
    exact this
  have hs : ∀ (b : ℝ) (f : Sc (G.mesh eta).m), cst _ b * f = b • f := by
    intro b f
    funext p
    refine Jet.ext rfl ?_
    funext i
    change 0 * (f p).v + b * (f p).g i = b * (f p).g i
    ring
  have key : ∀ s : Finset ι, G.tr eta (∑ i ∈ s, one i • Pi.single i 1) = ∑ i ∈ s, one i • G.test eta i := by
    intro s
    induction s using Finset.induction_on with
    | empty => simpa using hz
    | insert a s ha ih =>
      rw [Finset.sum_insert ha, Finset.sum_insert ha, add_comm, hG.lin, ih, hs, add_comm]
      rfl
  rw [← key, ← hG.one eta 1]
  congr 1
  funext j
  simp [Finset.sum_apply, Pi.single_apply]

/-- A form that is linear in the test function, for the test function 1. -/
theorem total_form (hG : Fits G base one) (eta : H → ℝ) {f : Sc (G.mesh eta).m → ℝ} (hf : IsLin f) :
    total one (fun j => f (G.test eta j)) = f (cst _ 1) := by
  rw [← sum_test hG, hf.map_sum]
  exact Finset.sum_congr rfl fun j _ => (hf.map_smul _ _).symm

theorem total_mass (hG : Fits G base one) (eta : H → ℝ) (u : ι → ℝ) : total one (G.mass eta u) = amount G eta u := by
  refine (total_form hG eta (f := fun t => (G.mesh eta).m.dx fun x => (G.tr eta u (.cell x)).v * (t (.cell x)).v)
    (IsLin.dx fun x => (lin_v _).left _)).trans ?_
  exact dx_congr fun x => mul_one _

theorem amount_lin (hG : Fits G base one) (eta : H → ℝ) (u r : ι → ℝ) (b : ℝ) :
    amount G eta (u + b • r) = amount G eta u + b * amount G eta r := by
  unfold amount Mesh.dx
  rw [hG.lin, Finset.mul_sum, ← Finset.sum_add_distrib]
  refine Finset.sum_congr rfl fun x _ => ?_
  change _ * ((G.tr eta u (.cell x)).v + b * (G.tr eta r (.cell x)).v) = _
  ring

section Step

variable {T : Type} {P : Env H U W E2 U2 T ι Q G}

/-- What the proofs need of the solvers: discontinuous elements, a mass matrix that is solved, a limiter that keeps
the amount (`C49_mean`) and backward Euler for vertical diffusion. -/
structure Keeps (P : Env H U W E2 U2 T ι Q G) : Prop where
  hdg : ∀ eta, (P.term eta).hdg = true
  vdg : ∀ eta, (P.term eta).vdg = true
  symm : ∀ eta, (P.term eta).symm = true
  mass : ∀ eta r, Wet G.ref eta → G.mass eta (P.massSolve eta r) = r
  lim : P.limit = true → ∀ eta u, amount G eta (P.lim eta u) = amount G eta u
  diffuse : P.implicit = true → ∀ n s u, Wet G.ref s.geo → ∃ F r, Backward P n s u F r
  noVelocity : ∀ n i eta j f, P.bc n i eta j = some f → NoVelocity f

/-- What enters per unit time in the state in which the right-hand side is assembled: through sides with an entry and
through the surface, from the source, and by the horizontal diffusion terms at surface and bottom. -/
noncomputable def inflow (P : Env H U W E2 U2 T ι Q G) (n i : ℕ) (s : St H U W E2 U2 T) (u : ι → ℝ) : ℝ :=
  let e := G.mesh s.geo
  let c := G.tr s.geo u
  let vel : Vc e.m := fun i => G.vel s.geo s.uv i + G.vel s.geo s.dav i
  let w : Sc e.m := if P.ale then G.wf s.geo s.w - G.wm s.geo s.ws else G.wf s.geo s.w
  let sides := e.sideLoop fun k b => sideOut (P.bc n i s.geo k) (normalH vel b) (c (.bnd b)).v b
  let surface := e.dsurf fun b => (normalH vel b + (w (.bnd b)).v * e.m.nb b 2) * (c (.bnd b)).v
  let source := ((P.rest n i s).source.map fun r => e.m.dx fun x => (r (.cell x)).v).getD 0
  hDiffusion (P.term s.geo) (P.rest n i s) c (cst e.m 1) + source - sides - surface

theorem total_rhs (hG : Fits G base one) (hP : Keeps P) (n i : ℕ) (s : St H U W E2 U2 T) (u : ι → ℝ) :
    total one (P.rhs n i s u) = inflow P n i s u := by
  refine (total_form hG s.geo (lin_residual (P.term s.geo) (P.fields n i s) (P.bc n i s.geo) (G.tr s.geo u))).trans ?_
  rw [C87_mass (P.term s.geo) (P.fields n i s) (P.bc n i s.geo) (G.vel s.geo s.uv) (G.wf s.geo s.w) (G.tr s.geo u) rfl rfl
    (hP.hdg _) (hP.vdg _) (hP.symm _) (hG.flat _) (hP.noVelocity n i s.geo)]
  have hw : ∀ b, surfaceFlow (P.fields n i s) (G.vel s.geo s.uv) (G.wf s.geo s.w) b =
      normalH (fun i => G.vel s.geo s.uv i + G.vel s.geo s.dav i) b +
        ((if P.ale then G.wf s.geo s.w - G.wm s.geo s.ws else G.wf s.geo s.w : Sc (G.mesh s.geo).m) (.bnd b)).v *
          (G.mesh s.geo).m.nb b 2 := by
    intro b
    unfold surfaceFlow meshW Env.fields
    cases P.ale
    · change _ + ((G.wf s.geo s.w (.bnd b)).v - 0) * _ = _ + (G.wf s.geo s.w (.bnd b)).v * _
      rw [sub_zero]; rfl
    · rfl
  simp only [hw]
  unfold inflow
  have hd : hDiffusion (P.term s.geo) (P.fields n i s) (G.tr s.geo u) (cst _ 1) =
    hDiffusion (P.term s.geo) (P.rest n i s) (G.tr s.geo u) (cst _ 1) := rfl
  have hs : (P.fields n i s).source = (P.rest n i s).source := rfl
  have ht : totalUv (P.fields n i s) (G.vel s.geo s.uv) = fun i => G.vel s.geo s.uv i + G.vel s.geo s.dav i := rfl
  rw [hd, hs, ht]
  ring

theorem amount_limited (hP : Keeps P) (eta : H → ℝ) (u : ι → ℝ) :
    amount G eta (P.limited eta u) = amount G eta u := by
  unfold Env.limited
  split
  · next h => exact hP.lim h eta u
  · rfl

theorem amount_solve (hG : Fits G base one) (hP : Keeps P) {eta : H → ℝ} (he : Wet G.ref eta) (r : ι → ℝ) :
    amount G eta (P.limited eta (P.massSolve eta r)) = total one r := by
  rw [amount_limited hP, ← total_mass hG, hP.mass eta r he]

theorem amount_diffuse (hG : Fits G base one) (hP : Keeps P) (hi : P.implicit = true) (n : ℕ) (s : St H U W E2 U2 T)
    (u : ι → ℝ) (he : Wet G.ref s.geo) : amount G s.geo (P.diffuse n s u) = amount G s.geo u := by
  obtain ⟨F, r, h1, h2⟩ := hP.diffuse hi n s u he
  have h0 : amount G s.geo r = 0 := by
    rw [← total_mass hG, funext h2,
      total_form hG s.geo (lin_vDiffusion (P.term s.geo) F (G.tr s.geo (u + P.dt • r)))]
    exact C88_columns _ _ _ _ (hG.flat _) (fun _ => rfl) fun _ _ => rfl
  rw [h1, amount_lin hG, h0, mul_zero, add_zero]

/-- A closed basin whose surface moves with the water: no entries, no flow through the surface, no source and no
horizontal diffusion. -/
structure Sealed (P : Env H U W E2 U2 T ι Q G) (n i : ℕ) (s : St H U W E2 U2 T) : Prop where
  sides : ∀ k, P.bc n i s.geo k = none
  surface : ∀ b, (G.mesh s.geo).face b = .surf → normalH (fun i => G.vel s.geo s.uv i + G.vel s.geo s.dav i) b +
    ((if P.ale then G.wf s.geo s.w - G.wm s.geo s.ws else G.wf s.geo s.w : Sc (G.mesh s.geo).m) (.bnd b)).v *
      (G.mesh s.geo).m.nb b 2 = 0
  diffH : (P.rest n i s).diffH = none
  source : (P.rest n i s).source = none

theorem inflow_sealed (n i : ℕ) (s : St H U W E2 U2 T) (u : ι → ℝ) (h : Sealed P n i s) : inflow P n i s u = 0 := by
  have h1 := fun b hb => congrArg (· * (G.tr s.geo u (.bnd b)).v) (h.surface b hb)
  unfold inflow hDiffusion
  simp only [h.sides, h.diffH, h.source]
  rw [dsurf_congr (h := fun _ => 0) fun b hb => by simpa using h1 b hb]
  simp [sideLoop_eq, sideOut, Mesh3.dsurf]

end Step

section TwoStage

variable {P : Env H U W E2 U2 (RK.Ale (ι → ℝ) (ι → ℝ)) ι Q G}

theorem after_amount (hG : Fits G base one) (hP : Keeps P) (n i : ℕ) (t : StA H U W E2 U2 ι)
    (hw : Wet G.ref (P.moveMesh t).geo) :
    amount G (after P n i t).geo (after P n i t).tr.sol = total one t.tr.mu := by
  rw [(after_fields n i t).1]
  have hsol := amount_solve hG hP hw t.tr.mu
  unfold after
  by_cases hi : i = 1
  · by_cases hm : P.implicit = true
    · simp only [hi, hm, if_true, Env.vertical, Env.momentumImpl, diffusion]
      exact (amount_diffuse hG hP hm n (P.couple (P.momentum n 1 (solveStage P (P.moveMesh t)))) _ hw).trans hsol
    · simp only [hi, hm, if_true, Bool.false_eq_true, if_false]
      exact hsol
  · simp only [hi, if_false]
    exact hsol

/-- C132 for one step of `CoupledTwoStageRK`: the amount after the first stage is that at the start plus the time step
times the inflow at the start; after the step it has grown by the mean of the inflow at the start and after the first
stage. -/
theorem C132_step (hG : Fits G base one) (hP : Keeps P) (n : ℕ) (s : StA H U W E2 U2 ι)
    (hw0 : Wet G.ref (stage P n 0 s).geo) (hw1 : Wet G.ref (advance P n s).geo) :
    amount G (stage P n 0 s).geo (stage P n 0 s).tr.sol =
      amount G s.geo s.tr.sol + P.dt * inflow P n 0 (before P n 0 s) s.tr.sol ∧
    amount G (advance P n s).geo (advance P n s).tr.sol = amount G s.geo s.tr.sol + P.dt *
      ((inflow P n 0 (before P n 0 s) s.tr.sol +
        inflow P n 1 (before P n 1 (stage P n 0 s)) (stage P n 0 s).tr.sol) / 2) := by
  obtain ⟨f1, -, -, -, f5, f6⟩ := stage_fields (P := P) n 0 s
  obtain ⟨g1, -⟩ := stage_fields (P := P) n 1 (stage P n 0 s)
  obtain ⟨b1, b2, -⟩ := before_same (P := P) n 0 s
  obtain ⟨c1, c2, -⟩ := before_same (P := P) n 1 (stage P n 0 s)
  have hmu0 : total one (prepare P n 0 (before P n 0 s)).tr.mu =
      amount G s.geo s.tr.sol + P.dt * inflow P n 0 (before P n 0 s) s.tr.sol := by
    simp only [prepare, if_true, RK.Ale.prep1, b2]
    rw [total_add, total_smul, total_rhs hG hP, total_mass hG, b1]
  have hold0 : total one (prepare P n 0 (before P n 0 s)).tr.muOld = amount G s.geo s.tr.sol := by
    simp only [prepare, if_true, RK.Ale.prep1, b2]
    rw [total_mass hG, b1]
  constructor
  · rw [← hmu0, stage_eq]
    exact after_amount hG hP n 0 _ (by rw [prepared_geo, ← f1]; exact hw0)
  · have hadv : advance P n s = after P n 1 (prepare P n 1 (before P n 1 (stage P n 0 s))) := rfl
    rw [hadv, after_amount hG hP n 1 _ (by rw [prepared_geo, ← g1]; exact hw1)]
    simp only [prepare, one_ne_zero, if_false, RK.Ale.prep2, c2]
    rw [total_add, total_add, total_smul, total_smul, total_smul, total_smul, total_rhs hG hP, f5, f6, hmu0, hold0]
    ring

/-- C132: the amount of tracer after any number of steps of `CoupledTwoStageRK` is that at the start plus what has
entered, by the trapezoidal rule over the stages of each step. -/
theorem C132_two_stage (hG : Fits G base one) (hP : Keeps P) (s : StA H U W E2 U2 ι) (n : ℕ)
    (hwet : ∀ m ≤ n, Wet G.ref (run P s m).geo) (hwet1 : ∀ m < n, Wet G.ref (stage P m 0 (run P s m)).geo) :
    amount G (run P s n).geo (run P s n).tr.sol = amount G (run P s 0).geo (run P s 0).tr.sol +
      ∑ m ∈ Finset.range n, P.dt * ((inflow P m 0 (before P m 0 (run P s m)) (run P s m).tr.sol +
        inflow P m 1 (before P m 1 (stage P m 0 (run P s m))) (stage P m 0 (run P s m)).tr.sol) / 2) := by
  induction n with
  | zero => simp
  | succ n ih =>
    rw [Finset.sum_range_succ, ← add_assoc, ← ih (fun m hm => hwet m (by omega)) fun m hm => hwet1 m (by omega)]
    exact (C132_step hG hP n _ (hwet1 n (by omega)) (hwet (n + 1) le_rfl)).2

/-- C132: in a closed basin whose surface moves with the water the amount of tracer does not change. -/
theorem C132_conserved (hG : Fits G base one) (hP : Keeps P) (s : StA H U W E2 U2 ι) (n : ℕ)
    (hwet : ∀ m ≤ n, Wet G.ref (run P s m).geo) (hwet1 : ∀ m < n, Wet G.ref (stage P m 0 (run P s m)).geo)
    (h0 : ∀ m < n, Sealed P m 0 (before P m 0 (run P s m)))
    (h1 : ∀ m < n, Sealed P m 1 (before P m 1 (stage P m 0 (run P s m)))) :
    amount G (run P s n).geo (run P s n).tr.sol = amount G (run P s 0).geo (run P s 0).tr.sol := by
  rw [C132_two_stage hG hP s n hwet hwet1, Finset.sum_eq_zero, add_zero]
  intro m hm
  have hm := Finset.mem_range.1 hm
  rw [inflow_sealed _ _ _ _ (h0 m hm), inflow_sealed _ _ _ _ (h1 m hm)]
  ring

end TwoStage

section LeapFrog

variable {P : Env H U W E2 U2 (RK.Leap (ι → ℝ) (ι → ℝ)) ι Q G} {mix : U2 → U2 → U2}

/-- C132 for one step of `CoupledLeapFrogAM3`: the amount grows by the time step times the inflow of the predicted state
between the time levels. -/
theorem C132_leap_step (hG : Fits G base one) (hP : Keeps P) (n : ℕ) (s : StL H U W E2 U2 ι)
    (hw : Wet G.ref (leapAdvance P mix n s).geo) :
    amount G (leapAdvance P mix n s).geo (leapAdvance P mix n s).tr.sol = amount G s.geo s.tr.sol +
      P.dt * inflow P n 1 (leapBefore P mix n (predict P n (still P s))) (predict P n (still P s)).tr.sol := by
  have hgeo : (still P s).geo = s.geo := by unfold still; split <;> rfl
  have htr : (still P s).tr = s.tr := by unfold still; split <;> rfl
  have b := leapBefore_fields (P := P) (mix := mix) n (predict P n (still P s))
  rw [leapAdvance_eq, (leapAfter_fields _ _).1] at hw
  rw [leapAdvance_eq, (leapAfter_fields _ _).1]
  set t := evalRhs P n (leapBefore P mix n (predict P n (still P s))) with ht
  have hsol := amount_solve hG hP hw (t.tr.rhs + t.tr.msolOld)
  have hrhs : t.tr.rhs =
      P.dt • P.rhs n 1 (leapBefore P mix n (predict P n (still P s))) (predict P n (still P s)).tr.sol := by
    simp only [ht, evalRhs, RK.Leap.evalRhs, b.2.1]
  have hms : t.tr.msolOld = G.mass s.geo s.tr.sol := by
    simp only [ht, evalRhs, RK.Leap.evalRhs, b.2.1]
    simp only [predict, RK.Leap.predict, htr, hgeo]
  have htot : total one (t.tr.rhs + t.tr.msolOld) = amount G s.geo s.tr.sol +
      P.dt * inflow P n 1 (leapBefore P mix n (predict P n (still P s))) (predict P n (still P s)).tr.sol := by
    rw [total_add, hrhs, hms, total_smul, total_rhs hG hP, total_mass hG, add_comm]
  rw [← htot, ← hsol]
  unfold leapAfter
  by_cases hm : P.implicit = true
  · simp only [hm, if_true, Env.vertical, Env.momentumImpl, leapDiffusion]
    exact amount_diffuse hG hP hm n (P.couple (P.momentum n 1 (correct P (P.moveMesh t)))) _ hw
  · simp only [hm, Bool.false_eq_true, if_false]
    rfl

/-- C132: the amount of tracer after any number of steps of `CoupledLeapFrogAM3`. -/
theorem C132_leap_frog (hG : Fits G base one) (hP : Keeps P) (s : StL H U W E2 U2 ι) (n : ℕ)
    (hwet : ∀ m ≤ n, Wet G.ref (leapRun P mix s m).geo) :
    amount G (leapRun P mix s n).geo (leapRun P mix s n).tr.sol =
      amount G (leapRun P mix s 0).geo (leapRun P mix s 0).tr.sol + ∑ m ∈ Finset.range n, P.dt *
        inflow P m 1 (leapBefore P mix m (predict P m (still P (leapRun P mix s m))))
          (predict P m (still P (leapRun P mix s m))).tr.sol := by
  induction n with
  | zero => simp
  | succ n ih =>
    rw [Finset.sum_range_succ, ← add_assoc, ← ih (fun m hm => hwet m (by omega))]
    exact C132_leap_step hG hP n _ (hwet (n + 1) le_rfl)

/-- C132: the same for `CoupledLeapFrogAM3`. -/
theorem C132_leap_conserved (hG : Fits G base one) (hP : Keeps P) (s : StL H U W E2 U2 ι) (n : ℕ)
    (hwet : ∀ m ≤ n, Wet G.ref (leapRun P mix s m).geo)
    (h : ∀ m < n, Sealed P m 1 (leapBefore P mix m (predict P m (still P (leapRun P mix s m))))) :
    amount G (leapRun P mix s n).geo (leapRun P mix s n).tr.sol =
      amount G (leapRun P mix s 0).geo (leapRun P mix s 0).tr.sol := by
  rw [C132_leap_frog hG hP s n hwet, Finset.sum_eq_zero, add_zero]
  intro m hm
  rw [inflow_sealed _ _ _ _ (h m (Finset.mem_range.1 hm)), mul_zero]

end LeapFrog

/-! ### The channel of `Props2` -/

theorem ch_backward (T : Type) (ale limit implicit : Bool) (k : ℝ) (n : ℕ) (s : St Unit ℝ Unit ℝ ℝ T) (u : TkC → ℝ)
    (he : Wet chGeo.ref s.geo) : ∃ F r, Backward (chEnv T ale limit implicit k) n s u F r :=
  let ⟨F, r, h, _⟩ := ch_diffuses T ale limit implicit k n s u he
  ⟨F, r, h⟩

theorem ch_keeps (T : Type) (ale limit implicit : Bool) (k : ℝ) : Keeps (chEnv T ale limit implicit k) where
  hdg := fun _ => rfl
  vdg := fun _ => rfl
  symm := fun _ => rfl
  mass := (ch_works T ale limit implicit k).mass
  lim := fun _ _ _ => rfl
  diffuse := fun _ => ch_backward T ale limit implicit k
  noVelocity := fun n i eta j f hf => by
    change (if (j == 1 || j == 2) = true then some _ else none) = some f at hf
    split at hf
    · simp only [Option.some.injEq] at hf
      subst hf
      exact ⟨rfl, rfl, rfl⟩
    · cases hf

/-- The closed channel: the surface is at rest, and the limiter mixes the layers. -/
noncomputable def basin (T : Type) (limit implicit : Bool) : Env Unit ℝ Unit ℝ ℝ T TkC TkC chGeo :=
  { chEnv T true limit implicit 35 with
    lim := fun _ u _ => (u .lo + u .up) / 2
    swe := fun _ _ s => (s.elev, s.uv2)
    bc := fun _ _ _ _ => none
    rest := fun _ _ _ => ⟨none, none, cst _ 0, none, none, 1, none, some (cst _ 1), none⟩ }

theorem ch_amount (eta : Unit → ℝ) (u : TkC → ℝ) : amount chGeo eta u = |layer eta| * u .lo + |layer eta| * u .up :=
  ch_dx eta _

theorem basin_keeps (T : Type) (limit implicit : Bool) : Keeps (basin T limit implicit) where
  hdg := fun _ => rfl
  vdg := fun _ => rfl
  symm := fun _ => rfl
  mass := (ch_works T true limit implicit 35).mass
  lim := fun _ eta u => by
    rw [ch_amount, ch_amount]
    change |layer eta| * ((u .lo + u .up) / 2) + |layer eta| * ((u .lo + u .up) / 2) = _
    ring
  diffuse := fun _ n s u he => ch_backward T true limit implicit 35 n s u he
  noVelocity := fun n i eta j f hf => by cases hf

theorem basin_sealed (T : Type) (limit implicit : Bool) (n i : ℕ) (s : St Unit ℝ Unit ℝ ℝ T) (h : s.ws () = 0) :
    Sealed (basin T limit implicit) n i s where
  sides := fun _ => rfl
  surface := fun b => by
    change TkB at b
    change tkFace b = .surf → ((if (0 : Fin 3) = 0 then s.uv else 0) + (if (0 : Fin 3) = 0 then s.dav else 0)) * chN b 0 +
      ((if (1 : Fin 3) = 0 then s.uv else 0) + (if (1 : Fin 3) = 0 then s.dav else 0)) * chN b 1 +
      (0 - newW 2 (s.ws ()) (chZ (eta := s.geo) (.bnd b))) * chN b 2 = 0
    rw [h]
    cases b <;> simp [tkFace, chN, newW]
  diffH := rfl
  source := rfl

/-- Whatever the salinity of both layers, the amount is the same after any number of steps. -/
example (limit implicit : Bool) (n : ℕ) (t : RK.Ale (TkC → ℝ) (TkC → ℝ)) :
    amount chGeo (run (basin _ limit implicit) (chState _ t) n).geo (run (basin _ limit implicit) (chState _ t) n).tr.sol =
      amount chGeo (run (basin _ limit implicit) (chState _ t) 0).geo t.sol := by
  set P := basin (RK.Ale (TkC → ℝ) (TkC → ℝ)) limit implicit with hP
  have hstage : ∀ m i s, (stage P m i s).elev = s.elev := fun m i s => by
    rw [stage_eq, (after_fields (P := P) m i _).2.1]
    change (before P m i s).elev = _
    rw [(before_same (P := P) m i _).2.2.2.2.2]
    change (P.store i s).elev = _
    unfold Env.store
    split
    · split <;> rfl
    · rfl
  have hws0 : ∀ m s, (before P m 0 s).ws () = 0 := fun m s => by
    simp [before, Env.meshVelocity, Env.store, Env.mode2d, hP, basin, chEnv]
  have hws1 : ∀ m s, (before P m 1 (stage P m 0 s)).ws () = 0 := fun m s => by
    have he0 : (stage P m 0 s).e0 = P.cg s.elev := by
      rw [(stage_fields (P := P) m 0 s).2.2.2.1]
      rfl
    have h2 : (before P m 1 (stage P m 0 s)).ws () =
        (2 * P.cg (stage P m 0 s).elev () - P.cg (stage P m 0 s).elev () - (stage P m 0 s).e0 ()) / P.dt := rfl
    rw [h2, hstage, he0]
    ring
  exact C132_conserved ch_fits (basin_keeps _ limit implicit) (chState _ t) n
    (fun m _ => by
      cases m with
      | zero => exact ch_cg_wet rfl
      | succ m => exact ch_cg_wet ((stage_fields _ 1 _).2.1 rfl))
    (fun m _ => ch_cg_wet ((stage_fields m 0 _).2.1 rfl))
    (fun m _ => basin_sealed _ _ _ _ _ _ (hws0 m _)) (fun m _ => basin_sealed _ _ _ _ _ _ (hws1 m _))

/-- The budget of the open channel with the moving surface. -/
example (limit implicit : Bool) (t : RK.Ale (TkC → ℝ) (TkC → ℝ)) (n : ℕ) :=
  C132_two_stage ch_fits (ch_keeps _ true limit implicit 35) (chState _ t) n
    (fun m _ => by
      cases m with
      | zero => exact ch_cg_wet rfl
      | succ m => exact ch_cg_wet ((stage_fields _ 1 _).2.1 rfl))
    (fun m _ => ch_cg_wet ((stage_fields m 0 _).2.1 rfl))

/-- The same with `CoupledLeapFrogAM3`. -/
example (limit implicit : Bool) (t : RK.Leap (TkC → ℝ) (TkC → ℝ)) (n : ℕ) :=
  C132_leap_frog (mix := fun a b => b * (2 / 3) + a * (1 / 3)) ch_fits (ch_keeps _ true limit implicit 35) (chState _ t) n
    (fun m _ => by
      cases m with
      | zero => exact ch_cg_wet rfl
      | succ m => exact ch_cg_wet ((leapAfter_fields m _).1.trans rfl))

end Verif.Ale
