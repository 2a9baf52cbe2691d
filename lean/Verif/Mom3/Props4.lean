import Verif.Mom3.Props

/-!
C91: the internal pressure gradient on extruded meshes.
-/

namespace Verif.Mom3

open Verif.Dg Verif.Ext

variable {e : Mesh3}

/-- The test function without its vertical component. -/
noncomputable def level (test : Vc e.m) : Vc e.m := fun i => if i = 2 then cst e.m 0 else test i

/-- Component of the test function along the outward normal, horizontal part. -/
def outward (test : Vc e.m) (b : e.m.B) : ℝ :=
  e.m.nb b 0 * (test 0 (.bnd b)).v + e.m.nb b 1 * (test 1 (.bnd b)).v

/-- The head outside exceeds the one inside by `d` where the side prescribes a baroclinic head; `d` is zero elsewhere. -/
def Excess (bc : ℕ → Option (BFuncs e)) (r : Sc e.m) (d : e.m.B → ℝ) : Prop :=
  ∀ b, (∀ f ext, bc (e.m.marker b) = some f → f.barocHead = some ext → d b = ext b - (r (.bnd b)).v) ∧
    ((∀ f, bc (e.m.marker b) = some f → f.barocHead = none) → d b = 0)

theorem headSide_eq (bc : ℕ → Option (BFuncs e)) (r : Sc e.m) (d : e.m.B → ℝ) (hd : Excess bc r d) (b : e.m.B) :
    headSide (bc (e.m.marker b)) r b = (r (.bnd b)).v + d b / 2 := by
  obtain ⟨h1, h2⟩ := hd b
  unfold headSide
  cases hb : bc (e.m.marker b) with
  | none =>
    simp only
    rw [h2 (fun f hf => by rw [hb] at hf; cases hf)]; simp
  | some f =>
    simp only
    cases hf : f.barocHead with
    | none =>
      simp only
      rw [h2 (fun f' hf' => by rw [hb] at hf'; cases hf'; exact hf)]; simp
    | some ext =>
      simp only
      rw [h1 f ext hb hf]; ring

/-- C91: after integration by parts the form is the gradient of the head, times the acceleration of gravity, plus the
jumps of the head between elements and half of its difference to a prescribed head at the sides. -/
theorem C91_identity (T : Term e) (bc : ℕ → Option (BFuncs e)) (r : Sc e.m) (test : Vc e.m) (d : e.m.B → ℝ)
    (hd : Excess bc r d) (hflat : e.m.Flat) (hex : DivExact e.m fun i => r * level test i) :
    intPgForm T true none bc r test = T.g *
      ((e.m.dx fun x => (r (.cell x)).g 0 * (test 0 (.cell x)).v + (r (.cell x)).g 1 * (test 1 (.cell x)).v) -
        (e.m.dS fun s => ((r (.plus s)).v - (r (.minus s)).v) *
          (e.m.np s 0 * avg (test 0) s + e.m.np s 1 * avg (test 1) s)) +
        (1 / 2) * ∑ b, e.m.wB b * if e.face b = .side then d b * outward test b else 0) := by
  unfold DivExact at hex
  have e1 : (e.m.dx fun c => div (fun i => r * level test i) (.cell c)) =
      (e.m.dx fun x => (r (.cell x)).g 0 * (test 0 (.cell x)).v + (r (.cell x)).g 1 * (test 1 (.cell x)).v) +
      e.m.dx fun x => (r (.cell x)).v * ((test 0 (.cell x)).g 0 + (test 1 (.cell x)).g 1) := by
    rw [← dx_add]
    refine dx_congr fun x => ?_
    unfold div level
    rw [Fin.sum_univ_three]
    simp
    ring
  have e2 : (e.m.dS fun s => jumpV (fun i => r * level test i) s) =
      (e.m.dS fun s => avg r s * (jumpN (test 0) s 0 + jumpN (test 1) s 1)) +
      e.m.dS fun s => ((r (.plus s)).v - (r (.minus s)).v) *
          (e.m.np s 0 * avg (test 0) s + e.m.np s 1 * avg (test 1) s) := by
    rw [← dS_add]
    refine dS_congr fun s => ?_
    unfold jumpV level jumpN avg
    simp only [Fin.sum_univ_three, hflat s 0, hflat s 1, hflat s 2]
    simp
    ring
  have e3 : (∑ b, e.m.wB b * normalAt (fun i => r * level test i) b) =
      ∑ b, e.m.wB b * ((r (.bnd b)).v * outward test b) := by
    refine dB_congr fun b => ?_
    unfold normalAt level outward
    rw [Fin.sum_univ_three]
    simp
    ring
  rw [e1, e2, e3, boundary_split] at hex
  unfold intPgForm
  simp only [if_true, h2]
  have f1 : (e.m.dx fun x => -(T.g * (r (.cell x)).v * ((test 0 (.cell x)).g 0 + (test 1 (.cell x)).g 1))) =
      -T.g * e.m.dx fun x => (r (.cell x)).v * ((test 0 (.cell x)).g 0 + (test 1 (.cell x)).g 1) := by
    rw [← dx_smul]
    exact dx_congr fun x => by ring
  have f2 : (e.dSv fun s => T.g * avg r s * (jumpN (test 0) s 0 + jumpN (test 1) s 1)) +
      (e.dSh fun s => T.g * avg r s * (jumpN (test 0) s 0 + jumpN (test 1) s 1)) =
      T.g * e.m.dS fun s => avg r s * (jumpN (test 0) s 0 + jumpN (test 1) s 1) := by
    rw [add_comm, dSh_add_dSv, ← dS_smul]
    exact dS_congr fun s => by ring
  have f3 : (e.dbottom fun b => T.g * (r (.bnd b)).v *
        (e.m.nb b 0 * (test 0 (.bnd b)).v + e.m.nb b 1 * (test 1 (.bnd b)).v)) =
      T.g * e.dbottom fun b => (r (.bnd b)).v * outward test b := by
    rw [← dbottom_smul]
    exact dbottom_congr fun b _ => by unfold outward; ring
  have f4 : (e.dsurf fun b => T.g * (r (.bnd b)).v *
        (e.m.nb b 0 * (test 0 (.bnd b)).v + e.m.nb b 1 * (test 1 (.bnd b)).v)) =
      T.g * e.dsurf fun b => (r (.bnd b)).v * outward test b := by
    rw [← dsurf_smul]
    exact dsurf_congr fun b _ => by unfold outward; ring
  have f5 : (e.sideLoop fun k b => T.g * headSide (bc k) r b *
        (e.m.nb b 0 * (test 0 (.bnd b)).v + e.m.nb b 1 * (test 1 (.bnd b)).v)) =
      T.g * ((e.sideLoop fun _ b => (r (.bnd b)).v * outward test b) +
        (1 / 2) * ∑ b, e.m.wB b * if e.face b = .side then d b * outward test b else 0) := by
    rw [sideLoop_eq, sideLoop_eq, ← dB_smul, ← dB_add, ← dB_smul]
    refine dB_congr fun b => ?_
    split
    · rw [headSide_eq bc r d hd b]
      unfold outward
      ring
    · simp
  rw [f1, f2, f3, f4, f5]
  linear_combination -T.g * hex

/-- C91: a continuous head, with nothing else prescribed at the sides, gives the same as the form for continuous
spaces; in particular a head that does not vary in the horizontal gives none. -/
theorem C91_consistent (T : Term e) (bc : ℕ → Option (BFuncs e)) (r : Sc e.m) (test : Vc e.m) (scalar : Option ℝ)
    (hd : Excess bc r fun _ => 0) (hflat : e.m.Flat) (hex : DivExact e.m fun i => r * level test i)
    (hcont : ∀ s, (r (.plus s)).v = (r (.minus s)).v) :
    intPgForm T true scalar bc r test = intPgForm T false scalar bc r test ∧
    ((∀ x, (r x).g 0 = 0 ∧ (r x).g 1 = 0) → intPgForm T true scalar bc r test = 0) := by
  have h0 : intPgForm T true none bc r test = intPgForm T false none bc r test := by
    rw [C91_identity T bc r test (fun _ => 0) hd hflat hex]
    have h1 : (e.m.dS fun s => ((r (.plus s)).v - (r (.minus s)).v) *
          (e.m.np s 0 * avg (test 0) s + e.m.np s 1 * avg (test 1) s)) = 0 := by
      rw [dS_congr (h := fun _ => (0 : ℝ)) fun s => by rw [hcont s]; ring]
      exact dS_zero
    rw [h1]
    unfold intPgForm
    simp [h2, dx_smul]
  have hs : ∀ b, intPgForm T b scalar bc r test = (scalar.getD 1) * intPgForm T b none bc r test := by
    intro b
    cases scalar <;> simp [intPgForm]
  refine ⟨by rw [hs, hs, h0], fun hg => ?_⟩
  rw [hs, h0]
  unfold intPgForm
  have : (e.m.dx fun x => T.g * h2 fun i => (r (.cell x)).g i * (test i (.cell x)).v) = 0 := by
    rw [dx_congr (h := fun _ => (0 : ℝ)) fun x => by simp [h2, (hg (.cell x)).1, (hg (.cell x)).2]]
    exact dx_zero
  simp [this]

/-- C91: in total the water gains the head on its boundary, no matter how the head jumps inside. -/
theorem C91_total (T : Term e) (bc : ℕ → Option (BFuncs e)) (r : Sc e.m) (d : e.m.B → ℝ) (i : Fin 3) (hi : i ≠ 2)
    (hd : Excess bc r d) (hflat : e.m.Flat) :
    intPgForm T true none bc r (fun j => if j = i then cst e.m 1 else cst e.m 0) =
      T.g * ∑ b, e.m.wB b * (((r (.bnd b)).v + if e.face b = .side then d b / 2 else 0) * e.m.nb b i) := by
  have hz : ∀ x : Fin 3, x = 0 ∨ x = 1 ∨ x = 2 := by decide
  have hdiv : ∀ p, h2 (fun k => ((if k = i then cst e.m 1 else cst e.m 0 : Sc e.m) p).g k) = 0 := by
    intro p
    unfold h2
    rcases hz i with rfl | rfl | rfl <;> simp
  have hj : ∀ s, h2 (fun k => jumpN (if k = i then cst e.m 1 else cst e.m 0) s k) = 0 := by
    intro s
    unfold h2 jumpN
    simp only [hflat s 0, hflat s 1]
    rcases hz i with rfl | rfl | rfl <;> simp
  have hn : ∀ b, h2 (fun k => e.m.nb b k * ((if k = i then cst e.m 1 else cst e.m 0 : Sc e.m) (.bnd b)).v) =
      e.m.nb b i := by
    intro b
    unfold h2
    rcases hz i with rfl | rfl | rfl
    · simp
    · simp
    · exact absurd rfl hi
  unfold intPgForm
  simp only [if_true, hdiv, hj, hn, mul_zero, neg_zero, dx_zero]
  have hv : e.dSv (fun _ => (0 : ℝ)) = 0 := by
    have := dSv_smul (e := e) 0 fun _ => (0 : ℝ)
    simpa using this
  have hh : e.dSh (fun _ => (0 : ℝ)) = 0 := by
    have := dSh_smul (e := e) 0 fun _ => (0 : ℝ)
    simpa using this
  rw [hv, hh]
  rw [sideLoop_eq]
  unfold Mesh3.dsurf Mesh3.dbottom
  rw [← dB_smul, zero_add, zero_add, zero_add, ← dB_add, ← dB_add]
  refine dB_congr fun b => ?_
  rw [headSide_eq bc r d hd b]
  cases e.face b <;> simp <;> ring

/-- C91: with the field that solves for the form the momentum equation has the force `- g ∇r`. -/
theorem C91_force (T : Term e) (F : Fields e) (bc : ℕ → Option (BFuncs e)) (r : Sc e.m) (pg test : Vc e.m) (dg : Bool)
    (scalar : Option ℝ) (hpg : F.intPg = some pg)
    (hsolve : e.m.dx (fun x => ∑ i, (pg i (.cell x)).v * (test i (.cell x)).v) = intPgForm T dg scalar bc r test)
    (htest : ∀ x, (test 2 x).v = 0) :
    pressureGradient F test = -intPgForm T dg scalar bc r test := by
  unfold pressureGradient
  rw [hpg, ← hsolve]
  simp only
  congr 1
  refine dx_congr fun x => ?_
  rw [Fin.sum_univ_three, htest]
  simp [h2]

/-- C91: the factor multiplies the whole gradient. -/
theorem C91_scalar (T : Term e) (bc : ℕ → Option (BFuncs e)) (r : Sc e.m) (test : Vc e.m) (dg : Bool) (a : ℝ) :
    intPgForm T dg (some a) bc r test = a * intPgForm T dg none bc r test := rfl

/-- C91: a boundary condition that gives only a baroclinic head is accepted for the pressure gradient, but the
advection term of the same equation raises an exception for it. -/
theorem C91_head_violated (T : Term e) (F : Fields e) (ext : e.m.B → ℝ) (k : ℕ) (U : Vc e.m) (r : Sc e.m) (b : e.m.B) :
    headSide (some { barocHead := some ext }) r b = (1 / 2) * (ext b + (r (.bnd b)).v) ∧
    extUv T F { barocHead := some ext } k U b = none := ⟨rfl, rfl⟩

/-- C89: the velocity outside: `un` is its normal component, `flux` is the flow through the whole boundary; neither
has a tangential part.  `symm` goes before `uv`, `uv` before `un`, `un` before `flux`; without any of them there is none. -/
theorem C89_outside (T : Term e) (F : Fields e) (f : BFuncs e) (k : ℕ) (U : Vc e.m) (b : e.m.B)
    (hn : ∑ i, e.m.nb b i ^ 2 = 1) (hh : (T.bath (.bnd b)).v + (F.eta (.bnd b)).v ≠ 0) (hl : T.blen k ≠ 0) :
    (f.symm = true → Outside T F f k U b fun i => (U i (.bnd b)).v) ∧
    (f.symm = false →
      (∀ u, f.uv = some u → Outside T F f k U b (u b)) ∧
      (f.uv = none →
        (∀ un, f.un = some un → ∃ V, Outside T F f k U b V ∧ ∑ i, V i * e.m.nb b i = un b ∧
          ∀ t : Fin 3 → ℝ, ∑ i, t i * e.m.nb b i = 0 → ∑ i, V i * t i = 0) ∧
        (f.un = none →
          (∀ q, f.flux = some q → ∃ V, Outside T F f k U b V ∧
            (∑ i, V i * e.m.nb b i) * ((T.bath (.bnd b)).v + (F.eta (.bnd b)).v) * T.blen k = q b ∧
            ∀ t : Fin 3 → ℝ, ∑ i, t i * e.m.nb b i = 0 → ∑ i, V i * t i = 0) ∧
          (f.flux = none → ∀ V, ¬ Outside T F f k U b V)))) := by
  have hdot : ∀ a : ℝ, ∑ i, e.m.nb b i * a * e.m.nb b i = a := by
    intro a
    have : ∑ i, e.m.nb b i * a * e.m.nb b i = a * ∑ i, e.m.nb b i ^ 2 := by
      rw [Finset.mul_sum]; exact Finset.sum_congr rfl fun i _ => by ring
    rw [this, hn, mul_one]
  have htan : ∀ (a : ℝ) (t : Fin 3 → ℝ), ∑ i, t i * e.m.nb b i = 0 → ∑ i, e.m.nb b i * a * t i = 0 := by
    intro a t ht
    have : ∑ i, e.m.nb b i * a * t i = a * ∑ i, t i * e.m.nb b i := by
      rw [Finset.mul_sum]; exact Finset.sum_congr rfl fun i _ => by ring
    rw [this, ht, mul_zero]
  unfold Outside extUv
  refine ⟨fun h => by simp [h], fun h => ⟨fun u hu => by simp [h, hu], fun hu => ⟨fun un hun => ?_, fun hun =>
    ⟨fun q hq => ?_, fun hq V => by simp [h, hu, hun, hq]⟩⟩⟩⟩
  · exact ⟨_, by simp only [h, hu, hun]; rfl, hdot _, htan _⟩
  · refine ⟨_, by simp only [h, hu, hun, hq]; rfl, ?_, htan _⟩
    rw [hdot]
    field_simp

/-- C90: the Coriolis force turns the deviation from the depth average to the right for a positive parameter: a flow
along the first axis gains momentum against the second, one along the second gains momentum along the first. -/
theorem C90_coriolis_right (F : Fields e) (u : Vc e.m) (c : Sc e.m) (hc : F.coriolis = some c) :
    coriolis F u (fun j => if j = 0 then cst e.m 1 else cst e.m 0) = e.m.dx (fun x => (c (.cell x)).v * (u 1 (.cell x)).v) ∧
    coriolis F u (fun j => if j = 1 then cst e.m 1 else cst e.m 0) = -e.m.dx fun x => (c (.cell x)).v * (u 0 (.cell x)).v := by
  unfold coriolis
  rw [hc]
  simp only [← dx_neg]
  constructor
  · refine dx_congr fun x => ?_
    simp
  · refine dx_congr fun x => ?_
    simp

/-! ### Example: a head that decreases along the tank -/

/-- The head `1 - x`, prescribed outside as one on the left side. -/
noncomputable def exHead : Sc tank.m := tankField ⟨1, -1, 0, 0⟩ ⟨1, -1, 0, 0⟩

noncomputable def headBc : ℕ → Option (BFuncs tank) := fun k =>
  if k = 1 then some { barocHead := some fun _ => 3 } else none

example : Excess headBc exHead fun b => if tank.m.marker b = 1 then 3 - (exHead (.bnd b)).v else 0 := by
  intro b
  dsimp only
  by_cases h : tank.m.marker b = 1
  · rw [if_pos h, headBc, if_pos h]
    refine ⟨fun f ext h1 h2 => ?_, fun h1 => absurd (h1 _ rfl) (by simp)⟩
    cases h1
    cases h2
    rfl
  · rw [if_neg h, headBc, if_neg h]
    exact ⟨fun f ext h1 h2 => by (cases h1), fun _ => rfl⟩

/-- The quadrature of the tank is exact for it with every constant test function. -/
theorem exHead_exact (k : Fin 3 → ℝ) : DivExact tank.m fun i => exHead * level (fun j => cst tank.m (k j)) i := by
  have : (fun i => exHead * level (fun j => cst tank.m (k j)) i) = fun i => tankField
      ⟨(if i = 2 then 0 else k i) * 1, (if i = 2 then 0 else k i) * -1, (if i = 2 then 0 else k i) * 0,
        (if i = 2 then 0 else k i) * 0⟩
      ⟨(if i = 2 then 0 else k i) * 1, (if i = 2 then 0 else k i) * -1, (if i = 2 then 0 else k i) * 0,
        (if i = 2 then 0 else k i) * 0⟩ := by
    funext i
    have : level (fun j => cst tank.m (k j)) i = cst tank.m (if i = 2 then 0 else k i) := by
      unfold level; split <;> rfl
    rw [this]
    exact tankField_smul _ _ _
  rw [this]
  exact tank_divExact _ _

/-- With closed sides the force is that of the gradient. -/
example : intPgForm exTerm true none (fun _ => none) exHead (fun j => cst tank.m (if j = 0 then 1 else 0)) = -25 := by
  rw [(C91_consistent exTerm _ exHead _ none (fun b => ⟨fun f ext h => by (cases h), fun _ => rfl⟩) tank_flat
    (exHead_exact _) (fun s => by cases s; rfl)).1]
  unfold intPgForm
  simp only [Bool.false_eq_true, if_false, h2]
  refine (tank_dx _).trans ?_
  simp [exHead, tankField, Lin.jet, exTerm]
  norm_num

end Verif.Mom3
