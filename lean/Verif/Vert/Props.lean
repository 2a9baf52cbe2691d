import Verif.Vert.Model
import Verif.Solve.Props4
import Verif.Mom3.Props3

/-!
C152: the implicit vertical step of the momentum equation.
-/

namespace Verif.Vert

open Finset Verif.Dg Verif.Ext Verif.Contract Verif.Solve

variable {e : Mesh3}

/-! ### Linear forms -/

theorem vc3_v (i : Fin 3) (p : Pt e.m) : IsLin fun x : Vc e.m => (x i p).v := ⟨fun _ _ => rfl, fun _ _ => rfl⟩
theorem vc3_g (i j : Fin 3) (p : Pt e.m) : IsLin fun x : Vc e.m => (x i p).g j := ⟨fun _ _ => rfl, fun _ _ => rfl⟩

/-- Shows that an expression is linear in a velocity by its structure. -/
macro "lin3" : tactic => `(tactic| repeat' first
  | exact IsLin.zero | exact vc3_v _ _ | exact vc3_g _ _ _ | exact IsLin.sc_v _ | exact IsLin.sc_g _ _
  | (apply IsLin.neg) | (apply IsLin.add) | (apply IsLin.sub)
  | (apply IsLin.dx; intro _) | (apply IsLin.dS; intro _) | (apply IsLin.dB; intro _)
  | (apply IsLin.left) | (apply IsLin.right) | (apply IsLin.quot) | (apply IsLin.ite) | (apply IsLin.sum; intro _))

theorem bilin_ipVel : Bilin (ipVel (e := e)) :=
  ⟨fun b => by unfold ipVel ip; lin3, fun a => by unfold ipVel ip; lin3⟩

theorem isEnergy_ipVel : IsEnergy (ipVel (e := e)) :=
  ⟨bilin_ipVel, fun _ _ => sum_congr rfl fun _ _ => ip_symm _ _, fun _ => sum_nonneg fun _ _ => ip_nonneg _⟩

/-- The integral of the square of a velocity, twice its kinetic energy for density one. -/
theorem ipVel_self (a : Vc e.m) : ipVel a a = e.m.dx fun x => ∑ i, (a i (.cell x)).v ^ 2 := by
  unfold ipVel ip
  rw [Fin.sum_univ_three, ← dx_add, ← dx_add]
  exact dx_congr fun x => by rw [Fin.sum_univ_three]; ring

theorem vDiffusion_left (T : Tracer3.Term e) (F : Tracer3.Fields e) (w : Sc e.m) : IsLin fun c : Sc e.m => Tracer3.vDiffusion T F c w := by
  unfold Tracer3.vDiffusion
  cases F.diffV with
  | none => exact IsLin.zero
  | some u =>
    cases T.vdg <;>
      simp only [if_true, if_false, Bool.false_eq_true, Mesh3.dSh, jumpN] <;> lin3

theorem vViscosity_bilin (T : Mom3.Term e) (F : Mom3.Fields e) : Bilin (Mom3.vViscosity T F) := by
  have h : Mom3.vViscosity T F = fun u w => ∑ c, Tracer3.vDiffusion (Mom3.tTerm T) (Mom3.tFields F 0) (u c) (w c) := by
    funext u w
    exact Mom3.vViscosity_eq T F u w 0
  rw [h]
  refine ⟨fun w => IsLin.sum fun c => ?_, fun u => IsLin.sum fun c => ?_⟩
  · exact ⟨fun x y => (vDiffusion_left (Mom3.tTerm T) (Mom3.tFields F 0) (w c)).1 (x c) (y c),
      fun a x => (vDiffusion_left (Mom3.tTerm T) (Mom3.tFields F 0) (w c)).2 a (x c)⟩
  · exact ⟨fun x y => (vDiffusion_test (Mom3.tTerm T) (Mom3.tFields F 0) (u c)).1 (x c) (y c),
      fun a x => (vDiffusion_test (Mom3.tTerm T) (Mom3.tFields F 0) (u c)).2 a (x c)⟩

section Terms

variable (T : Mom3.Term e) (friction : Bool) (mu : Option (Sc e.m)) (P : Friction e) (bc : ℕ → Option (Mom3.BFuncs e))

/-- The terms of `mom_impl`. -/
theorem res_eq (u v w : Vc e.m) : (momImpl T friction mu P bc).res u v w =
    Mom3.vViscosity (vertTerm T friction) (implFields mu P) u w + Mom3.bottomFriction (vertTerm T friction) (implFields mu P) u v w +
      Mom3.linearDrag (implFields mu P) u w + Mom3.windStress (vertTerm T friction) (implFields mu P) w := by
  simp [momImpl, mom3, Mom3.residual, Mom3.pressureGradient, Mom3.hAdvection, Mom3.vAdvection, Mom3.hViscosity, Mom3.coriolis,
    Mom3.source, vertTerm, implFields]

theorem friction_bilin (v : Vc e.m) : Bilin fun u w => Mom3.bottomFriction (vertTerm T friction) (implFields mu P) u v w := by
  unfold Mom3.bottomFriction
  cases h : (vertTerm T friction).friction
  · exact ⟨fun _ => by simpa using IsLin.zero, fun _ => by simpa using IsLin.zero⟩
  · simp only [if_true, Mom3.total, implFields, Mom3.h2, Mesh3.dbottom]
    exact ⟨fun w => by lin3, fun u => by lin3⟩

theorem drag_bilin : Bilin fun u w => Mom3.linearDrag (implFields mu P) u w := by
  unfold Mom3.linearDrag
  cases h : (implFields mu P).linDrag with
  | none => exact ⟨fun _ => IsLin.zero, fun _ => IsLin.zero⟩
  | some c =>
    simp only [Mom3.total, implFields]
    exact ⟨fun w => by lin3, fun u => by lin3⟩

theorem wind_test : IsLin fun w => Mom3.windStress (vertTerm T friction) (implFields mu P) w := by
  unfold Mom3.windStress
  split
  · simp only [Mom3.h2, Mesh3.dsurf]; lin3
  · exact IsLin.zero

theorem res_sub (u v w : Vc e.m) : (momImpl T friction mu P bc).res u v w - (momImpl T friction mu P bc).res 0 v w =
    Mom3.vViscosity (vertTerm T friction) (implFields mu P) u w + Mom3.bottomFriction (vertTerm T friction) (implFields mu P) u v w +
      Mom3.linearDrag (implFields mu P) u w := by
  have h1 := ((vViscosity_bilin (vertTerm T friction) (implFields mu P)).1 w).2 0 0
  have h2 := ((friction_bilin T friction mu P v).1 w).2 0 0
  have h3 := ((drag_bilin mu P).1 w).2 0 0
  simp only [zero_smul, zero_mul] at h1 h2 h3
  rw [res_eq, res_eq, h1, h2, h3]
  ring

theorem weak : Weak (momImpl T friction mu P bc) :=
  ⟨bilin_ipVel, bilin_ipVel, fun u v => by
    have h : (momImpl T friction mu P bc).res u v = fun w => _ := funext fun w => res_eq T friction mu P bc u v w
    rw [h]
    exact ((((vViscosity_bilin _ _).2 u).add ((friction_bilin T friction mu P v).2 u)).add ((drag_bilin mu P).2 u)).add
      (wind_test T friction mu P)⟩

theorem affine (v : Vc e.m) : Affine (momImpl T friction mu P bc) v := fun w => by
  simp only [res_sub]
  exact (((vViscosity_bilin _ _).1 w).add ((friction_bilin T friction mu P v).1 w)).add ((drag_bilin mu P).1 w)

end Terms

/-! ### The step -/

/-- What the theorems ask of mesh and coefficients: vertical facets of prisms, a viscosity that is not negative with the penalty above
the bound of the trace inequality (the setting of C88), drag coefficients that are not negative. -/
structure Damped (T : Mom3.Term e) (mu : Option (Sc e.m)) (P : Friction e) (H : Submodule ℝ (Vc e.m)) (kappa alpha : ℝ) : Prop where
  flat : e.m.Flat
  vol : ∀ s, 0 < e.m.volP s ∧ 0 < e.m.volM s ∧ 0 < e.m.areaS s
  cell : ∀ m, mu = some m → ∀ x, 0 ≤ (m (.cell x)).v
  side : ∀ m, mu = some m → ∀ s, 0 ≤ (m (.plus s)).v ∧ 0 ≤ (m (.minus s)).v
  pos : 0 < kappa
  trace : ∀ m, mu = some m → ∀ u ∈ H, ∀ c, Tracer3.TraceBoundV m (u c) kappa
  sipg : ∀ s, alpha ≤ (T.sipgV (.plus s)).v ∧ alpha ≤ (T.sipgV (.minus s)).v
  enough : kappa / 2 ≤ alpha * (T.q + 1) ^ 2
  drag : ∀ d, P.drag = some d → ∀ b, 0 ≤ (d (.bnd b)).v
  lin : ∀ d, P.linDrag = some d → ∀ x, 0 ≤ (d (.cell x)).v

section Step

variable {T : Mom3.Term e} {friction : Bool} {mu : Option (Sc e.m)} {P : Friction e} {bc : ℕ → Option (Mom3.BFuncs e)}
  {H : Submodule ℝ (Vc e.m)} {kappa alpha : ℝ}

theorem Damped.viscosity (D : Damped T mu P H kappa alpha) (friction : Bool) {u : Vc e.m} (hu : u ∈ H) :
    Mom3.vViscosity (vertTerm T friction) (implFields mu P) u u ≤ 0 := by
  cases hm : mu with
  | none => exact le_of_eq rfl
  | some m =>
    exact Mom3.C90_vertical (vertTerm T friction) (implFields (some m) P) u m kappa alpha rfl D.flat D.vol (D.cell m hm)
      (D.side m hm) D.pos (D.trace m hm u hu) D.sipg D.enough

theorem Damped.bottom (D : Damped T mu P H kappa alpha) (friction : Bool) (u v : Vc e.m) :
    Mom3.bottomFriction (vertTerm T friction) (implFields mu P) u v u ≤ 0 := by
  cases friction
  · exact le_of_eq (by simp [Mom3.bottomFriction, vertTerm])
  · exact (Mom3.C90_friction (vertTerm T true) (implFields mu P) u v u v (Or.inl ⟨rfl, rfl⟩) (Or.inl ⟨rfl, rfl⟩) rfl D.drag).1

theorem Damped.linear (D : Damped T mu P H kappa alpha) (u : Vc e.m) : Mom3.linearDrag (implFields mu P) u u ≤ 0 := by
  cases h : P.linDrag with
  | none => exact le_of_eq (by simp [Mom3.linearDrag, implFields, h])
  | some c =>
    rw [Mom3.C90_drag (implFields mu P) u u c (Or.inl ⟨rfl, rfl⟩) h]
    exact neg_nonpos.2 (dx_nonneg fun x => mul_nonneg (D.lin c h x) (sum_nonneg fun i _ => sq_nonneg _))

theorem Damped.passive (D : Damped T mu P H kappa alpha) (friction : Bool) (bc : ℕ → Option (Mom3.BFuncs e)) (v : Vc e.m) {u : Vc e.m}
    (hu : u ∈ H) : (momImpl T friction mu P bc).res u v u - (momImpl T friction mu P bc).res 0 v u ≤ 0 := by
  rw [res_sub]
  linarith [D.viscosity friction hu, D.bottom friction u v, D.linear u]

/-- The system of one step: the speed in the friction term is that of the velocity before the step, whatever `semi_implicit` is. -/
theorem step_iff {dt : ℝ} {semi : Bool} {old new : Vc e.m} : Step T friction mu P bc dt semi H old new ↔
    ∃ k ∈ H, new = old + dt • k ∧ ∀ w ∈ H, ipVel k w = (momImpl T friction mu P bc).res new old w := by
  have hn : RK.backwardEuler.n = 1 := by simp [RK.backwardEuler, RK.mk]
  have ha : RK.backwardEuler.a 0 0 = 1 := by simp [RK.backwardEuler, RK.mk]
  have hb : RK.backwardEuler.b 0 = 1 := by simp [RK.backwardEuler, RK.mk, RK.vec]
  have hl : ∀ k : ℕ → Vc e.m, stageLin RK.backwardEuler dt semi old k 0 = old := fun k => by simp [stageLin]
  have hv : ∀ k : ℕ → Vc e.m, stageValue RK.backwardEuler dt old k 0 = old + dt • k 0 := fun k => by
    simp [stageValue, ha]
  unfold Step TendencyStep
  rw [hn]
  simp only [sum_range_one, hb, mul_one]
  constructor
  · rintro ⟨k, hk, rfl⟩
    obtain ⟨h0, h1⟩ := hk 0 one_pos
    refine ⟨k 0, h0, rfl, fun w hw => ?_⟩
    have := h1 w hw
    rw [hl, hv] at this
    have h2 : (momImpl T friction mu P bc).inner (k 0) w = ipVel (k 0) w := rfl
    linarith
  · rintro ⟨k, hk, rfl, h⟩
    refine ⟨fun _ => k, fun i hi => ?_, rfl⟩
    obtain rfl : i = 0 := by omega
    refine ⟨hk, fun w hw => ?_⟩
    rw [hl, hv]
    have h2 : (momImpl T friction mu P bc).inner k w = ipVel k w := rfl
    linarith [h w hw]

theorem step_mem {dt : ℝ} {semi : Bool} {old new : Vc e.m} (ho : old ∈ H) (h : Step T friction mu P bc dt semi H old new) : new ∈ H := by
  obtain ⟨k, hk, rfl, -⟩ := step_iff.1 h
  exact H.add_mem ho (H.smul_mem _ hk)

theorem step_form {dt : ℝ} {semi : Bool} {old new : Vc e.m} (h : Step T friction mu P bc dt semi H old new) {w : Vc e.m} (hw : w ∈ H) :
    ipVel new w - ipVel old w = dt * (momImpl T friction mu P bc).res new old w := by
  obtain ⟨k, hk, rfl, hk2⟩ := step_iff.1 h
  rw [← hk2 w hw, bilin_ipVel.add_left, bilin_ipVel.smul_left]
  ring

/-- C152: `semi_implicit_2d` and the like do not matter here: the friction always takes the speed before the step. -/
theorem C152_semi {dt : ℝ} {old new : Vc e.m} :
    Step T friction mu P bc dt true H old new ↔ Step T friction mu P bc dt false H old new := step_iff.trans step_iff.symm

/-- C152: the step has exactly one result for time steps of any length. -/
theorem C152_unique [FiniteDimensional ℝ H] (D : Damped T mu P H kappa alpha) (hw : ∀ x, 0 < e.m.wC x)
    (hdef : ∀ u ∈ H, (∀ x i, (u i (.cell x)).v = 0) → u = 0) {dt : ℝ} (hdt : 0 ≤ dt) (semi : Bool) (old : Vc e.m) :
    ∃! new, Step T friction mu P bc dt semi H old new := by
  refine C145_dirk (fun _ _ => weak T friction mu P bc) (fun _ _ v => affine T friction mu P bc v) dt semi old fun i hi v _ => ?_
  have hn : RK.backwardEuler.n = 1 := by simp [RK.backwardEuler, RK.mk]
  have ha : RK.backwardEuler.a 0 0 = 1 := by simp [RK.backwardEuler, RK.mk]
  obtain rfl : i = 0 := by omega
  rw [ha, one_mul]
  refine C145_passive id v hdt (fun _ h => h) (fun x _ => isEnergy_ipVel.nonneg x) (fun x hx h0 => ?_)
    fun x hx => D.passive friction bc v hx
  have h1 := (sum_eq_zero_iff_of_nonneg fun i _ => ip_nonneg (x i)).1 (show ∑ i, ip (x i) (x i) = 0 from h0)
  exact hdef x hx fun y i => ip_zero hw (h1 i (mem_univ i)) y

/-- C152: the balance of energy: what the wind does not bring is lost to viscosity, friction and drag.  `Cd` is the coefficient of the
friction, `c` of the drag. -/
theorem C152_budget (D : Damped T (some m) P H kappa alpha) {dt : ℝ} (hdt : 0 ≤ dt) {semi : Bool} {old new tau : Vc e.m}
    (ho : old ∈ H) (ht : P.wind = some tau) (Cd : e.m.B → ℝ)
    (hCd : ∀ b, e.face b = .bottom → Mom3.dragAt (vertTerm T true) (implFields (some m) P) b = some (Cd b))
    (h : Step T true (some m) P bc dt semi H old new) :
    (e.m.dx fun x => ∑ i, (new i (.cell x)).v ^ 2) + (e.m.dx fun x => ∑ i, (new i (.cell x) - old i (.cell x)).v ^ 2) +
      2 * dt * (e.dbottom fun b => Cd b * Real.sqrt ((old 0 (.bnd b)).v ^ 2 + (old 1 (.bnd b)).v ^ 2) *
        ((new 0 (.bnd b)).v ^ 2 + (new 1 (.bnd b)).v ^ 2)) ≤
    (e.m.dx fun x => ∑ i, (old i (.cell x)).v ^ 2) +
      2 * dt * e.dsurf fun b => ((tau 0 (.bnd b)).v * (new 0 (.bnd b)).v + (tau 1 (.bnd b)).v * (new 1 (.bnd b)).v) / T.rho0 := by
  have hn := step_mem ho h
  have h1 := step_form h hn
  rw [res_eq] at h1
  have h2 := D.viscosity true hn
  have h3 := (Mom3.C90_friction (vertTerm T true) (implFields (some m) P) new old new old (Or.inl ⟨rfl, rfl⟩) (Or.inl ⟨rfl, rfl⟩) rfl
    D.drag).2 Cd hCd
  have h4 := D.linear new
  have h5 : Mom3.windStress (vertTerm T true) (implFields (some m) P) new =
      e.dsurf fun b => ((tau 0 (.bnd b)).v * (new 0 (.bnd b)).v + (tau 1 (.bnd b)).v * (new 1 (.bnd b)).v) / T.rho0 := by
    have hF : (implFields (some m) P).wind = some tau := ht
    have hV : (implFields (some m) P).viscV = some m := rfl
    unfold Mom3.windStress
    rw [hF, hV]
    rfl
  rw [h3, h5] at h1
  have h6 : (e.m.dx fun x => ∑ i, (new i (.cell x) - old i (.cell x)).v ^ 2) = ipVel (new - old) (new - old) := (ipVel_self (new - old)).symm
  have h7 : ipVel (new - old) (new - old) = ipVel new new - 2 * ipVel old new + ipVel old old := by
    rw [bilin_ipVel.sub_left, bilin_ipVel.sub_right, bilin_ipVel.sub_right, isEnergy_ipVel.symm new old]; ring
  rw [h6, h7, ← ipVel_self, ← ipVel_self]
  nlinarith [mul_nonneg hdt (neg_nonneg.2 h2), mul_nonneg hdt (neg_nonneg.2 h4)]

/-- C152: the balance with a given drag coefficient, whatever the roughness. -/
theorem C152_quadratic (D : Damped T (some m) P H kappa alpha) {dt : ℝ} (hdt : 0 ≤ dt) {semi : Bool} {old new tau : Vc e.m}
    (ho : old ∈ H) (ht : P.wind = some tau) {d : Sc e.m} (hd : P.drag = some d) (h : Step T true (some m) P bc dt semi H old new) :
    (e.m.dx fun x => ∑ i, (new i (.cell x)).v ^ 2) + (e.m.dx fun x => ∑ i, (new i (.cell x) - old i (.cell x)).v ^ 2) +
      2 * dt * (e.dbottom fun b => (d (.bnd b)).v *
        Real.sqrt ((old 0 (.bnd b)).v ^ 2 + (old 1 (.bnd b)).v ^ 2) * ((new 0 (.bnd b)).v ^ 2 + (new 1 (.bnd b)).v ^ 2)) ≤
    (e.m.dx fun x => ∑ i, (old i (.cell x)).v ^ 2) +
      2 * dt * e.dsurf fun b => ((tau 0 (.bnd b)).v * (new 0 (.bnd b)).v + (tau 1 (.bnd b)).v * (new 1 (.bnd b)).v) / T.rho0 :=
  C152_budget D hdt ho ht (fun b => (d (.bnd b)).v) (fun b _ => by simp [Mom3.dragAt, implFields, hd]) h

/-- C152: the balance with the drag coefficient of the logarithmic layer over the roughness `z`, if no coefficient is given. -/
theorem C152_rough (D : Damped T (some m) P H kappa alpha) {dt : ℝ} (hdt : 0 ≤ dt) {semi : Bool} {old new tau : Vc e.m}
    (ho : old ∈ H) (ht : P.wind = some tau) {z : Sc e.m} (hd : P.drag = none) (hz : P.roughness = some z) (h : Step T true (some m) P bc dt semi H old new) :
    (e.m.dx fun x => ∑ i, (new i (.cell x)).v ^ 2) + (e.m.dx fun x => ∑ i, (new i (.cell x) - old i (.cell x)).v ^ 2) +
      2 * dt * (e.dbottom fun b => (T.kappa * (T.elemH (.bnd b)).v / (-(7 / 4) * (T.elemH (.bnd b)).v - 3 / 2 * (z (.bnd b)).v +
          ((T.elemH (.bnd b)).v + 5 / 2 * (z (.bnd b)).v) * Real.log (((T.elemH (.bnd b)).v + (z (.bnd b)).v) / (z (.bnd b)).v))) ^ 2 *
        Real.sqrt ((old 0 (.bnd b)).v ^ 2 + (old 1 (.bnd b)).v ^ 2) * ((new 0 (.bnd b)).v ^ 2 + (new 1 (.bnd b)).v ^ 2)) ≤
    (e.m.dx fun x => ∑ i, (old i (.cell x)).v ^ 2) +
      2 * dt * e.dsurf fun b => ((tau 0 (.bnd b)).v * (new 0 (.bnd b)).v + (tau 1 (.bnd b)).v * (new 1 (.bnd b)).v) / T.rho0 :=
  C152_budget D hdt ho ht (fun b => (T.kappa * (T.elemH (.bnd b)).v / (-(7 / 4) * (T.elemH (.bnd b)).v - 3 / 2 * (z (.bnd b)).v +
          ((T.elemH (.bnd b)).v + 5 / 2 * (z (.bnd b)).v) * Real.log (((T.elemH (.bnd b)).v + (z (.bnd b)).v) / (z (.bnd b)).v))) ^ 2) (fun b _ => by simp [Mom3.dragAt, Mom3.dragDenom, implFields, vertTerm, hd, hz]) h

/-- C152: without wind no energy is added, whatever the time step. -/
theorem C152_energy (D : Damped T mu P H kappa alpha) {dt : ℝ} (hdt : 0 ≤ dt) {semi : Bool} {old new : Vc e.m} (ho : old ∈ H)
    (ht : P.wind = none) (h : Step T friction mu P bc dt semi H old new) :
    (e.m.dx fun x => ∑ i, (new i (.cell x)).v ^ 2) ≤ e.m.dx fun x => ∑ i, (old i (.cell x)).v ^ 2 := by
  have hn := step_mem ho h
  have h1 := step_form h hn
  have h2 := D.passive friction bc old hn
  have h3 : (momImpl T friction mu P bc).res 0 old new = 0 := by
    have e1 := ((vViscosity_bilin (vertTerm T friction) (implFields mu P)).1 new).2 0 0
    have e2 := ((friction_bilin T friction mu P old).1 new).2 0 0
    have e3 := ((drag_bilin mu P).1 new).2 0 0
    simp only [zero_smul, zero_mul] at e1 e2 e3
    rw [res_eq, e1, e2, e3]
    simp [Mom3.windStress, implFields, ht]
  have h6 := isEnergy_ipVel.nonneg (new - old)
  have h7 : ipVel (new - old) (new - old) = ipVel new new - 2 * ipVel old new + ipVel old old := by
    rw [bilin_ipVel.sub_left, bilin_ipVel.sub_right, bilin_ipVel.sub_right, isEnergy_ipVel.symm new old]; ring
  rw [← ipVel_self, ← ipVel_self]
  rw [h3, sub_zero] at h2
  nlinarith [mul_nonneg hdt (neg_nonneg.2 h2)]

/-- C152: a whole run of such steps, each with its own viscosity, coefficients and length. -/
theorem C152_run {mus : ℕ → Option (Sc e.m)} {Ps : ℕ → Friction e} {dts : ℕ → ℝ} {u : ℕ → Vc e.m} {semi : Bool}
    (D : ∀ n, Damped T (mus n) (Ps n) H kappa alpha) (hdt : ∀ n, 0 ≤ dts n) (hw : ∀ n, (Ps n).wind = none) (h0 : u 0 ∈ H)
    (h : ∀ n, Step T friction (mus n) (Ps n) bc (dts n) semi H (u n) (u (n + 1))) (n : ℕ) :
    u n ∈ H ∧ (e.m.dx fun x => ∑ i, (u n i (.cell x)).v ^ 2) ≤ e.m.dx fun x => ∑ i, (u 0 i (.cell x)).v ^ 2 := by
  induction n with
  | zero => exact ⟨h0, le_rfl⟩
  | succ n ih => exact ⟨step_mem ih.1 (h n), (C152_energy (D n) (hdt n) ih.1 (hw n) (h n)).trans ih.2⟩

/-- C152: the momentum of a water column, weighed with a function that does not vary in the vertical, changes by the stress of the wind
and by friction and drag only; viscosity moves momentum within the column. -/
theorem C152_columns (hflat : e.m.Flat) {dt : ℝ} {semi : Bool} {old new tau w : Vc e.m} {m c : Sc e.m} (ht : P.wind = some tau)
    (hc : P.linDrag = some c) (hw : w ∈ H) (hg : ∀ i x, (w i x).g 2 = 0)
    (hj : ∀ i s, e.hor s = true → (w i (.plus s)).v = (w i (.minus s)).v) (Cd : e.m.B → ℝ)
    (hCd : ∀ b, e.face b = .bottom → Mom3.dragAt (vertTerm T true) (implFields (some m) P) b = some (Cd b))
    (h : Step T true (some m) P bc dt semi H old new) :
    (∑ i, e.m.dx fun x => (new i (.cell x)).v * (w i (.cell x)).v) - (∑ i, e.m.dx fun x => (old i (.cell x)).v * (w i (.cell x)).v) =
      dt * ((e.dsurf fun b => ((tau 0 (.bnd b)).v * (w 0 (.bnd b)).v + (tau 1 (.bnd b)).v * (w 1 (.bnd b)).v) / T.rho0) -
        (e.dbottom fun b => Cd b * Real.sqrt ((old 0 (.bnd b)).v ^ 2 + (old 1 (.bnd b)).v ^ 2) *
          ((w 0 (.bnd b)).v * (new 0 (.bnd b)).v + (w 1 (.bnd b)).v * (new 1 (.bnd b)).v)) -
        e.m.dx fun x => (c (.cell x)).v * ∑ i, (w i (.cell x)).v * (new i (.cell x)).v) := by
  have h1 := step_form h hw
  rw [res_eq, Mom3.C90_columns _ _ new w hflat hg hj] at h1
  have h3 : Mom3.bottomFriction (vertTerm T true) (implFields (some m) P) new old w =
      -(e.dbottom fun b => Cd b * Real.sqrt ((old 0 (.bnd b)).v ^ 2 + (old 1 (.bnd b)).v ^ 2) *
          ((w 0 (.bnd b)).v * (new 0 (.bnd b)).v + (w 1 (.bnd b)).v * (new 1 (.bnd b)).v)) := by
    unfold Mom3.bottomFriction
    rw [if_pos (show (vertTerm T true).friction = true from rfl)]
    exact congrArg Neg.neg (dbottom_congr fun b hb => by rw [hCd b hb]; rfl)
  have h4 : Mom3.linearDrag (implFields (some m) P) new w =
      -(e.m.dx fun x => (c (.cell x)).v * ∑ i, (w i (.cell x)).v * (new i (.cell x)).v) := by
    have hF : (implFields (some m) P).linDrag = some c := hc
    unfold Mom3.linearDrag
    rw [hF]
    rfl
  have h5 : Mom3.windStress (vertTerm T true) (implFields (some m) P) w =
      e.dsurf fun b => ((tau 0 (.bnd b)).v * (w 0 (.bnd b)).v + (tau 1 (.bnd b)).v * (w 1 (.bnd b)).v) / T.rho0 := by
    have hF : (implFields (some m) P).wind = some tau := ht
    have hV : (implFields (some m) P).viscV = some m := rfl
    unfold Mom3.windStress
    rw [hF, hV]
    rfl
  rw [h3, h4, h5] at h1
  refine Eq.trans h1 ?_
  ring

/-- C152: without friction at the bed the difference of two velocities under the same wind does not grow. -/
theorem C152_difference (D : Damped T mu P H kappa alpha) {dt : ℝ} (hdt : 0 ≤ dt) {semi : Bool} {o o' n n' : Vc e.m} (ho : o ∈ H)
    (ho' : o' ∈ H) (h : Step T false mu P bc dt semi H o n) (h' : Step T false mu P bc dt semi H o' n') :
    (e.m.dx fun x => ∑ i, (n i (.cell x) - n' i (.cell x)).v ^ 2) ≤ e.m.dx fun x => ∑ i, (o i (.cell x) - o' i (.cell x)).v ^ 2 := by
  have hz : n - n' ∈ H := H.sub_mem (step_mem ho h) (step_mem ho' h')
  have h1 := step_form h hz
  have h1' := step_form h' hz
  have hf : ∀ u v w, Mom3.bottomFriction (vertTerm T false) (implFields mu P) u v w = 0 := fun u v w => by
    simp [Mom3.bottomFriction, vertTerm]
  rw [res_eq, hf] at h1 h1'
  have h2 := D.viscosity false hz
  rw [(vViscosity_bilin _ _).sub_left] at h2
  have h4 := D.linear (n - n')
  rw [(drag_bilin mu P).sub_left] at h4
  have h5 : ipVel (n - n') (n - n') = ipVel n (n - n') - ipVel n' (n - n') := bilin_ipVel.sub_left _ _ _
  have h6 : ipVel (o - o') (n - n') = ipVel o (n - n') - ipVel o' (n - n') := bilin_ipVel.sub_left _ _ _
  have h7 := isEnergy_ipVel.nonneg ((n - n') - (o - o'))
  have h8 : ipVel ((n - n') - (o - o')) ((n - n') - (o - o')) =
      ipVel (n - n') (n - n') - 2 * ipVel (o - o') (n - n') + ipVel (o - o') (o - o') := by
    generalize n - n' = a
    generalize o - o' = b
    rw [bilin_ipVel.sub_left, bilin_ipVel.sub_right, bilin_ipVel.sub_right, isEnergy_ipVel.symm a b]; ring
  have e1 : (e.m.dx fun x => ∑ i, (n i (.cell x) - n' i (.cell x)).v ^ 2) = ipVel (n - n') (n - n') := (ipVel_self (n - n')).symm
  have e2 : (e.m.dx fun x => ∑ i, (o i (.cell x) - o' i (.cell x)).v ^ 2) = ipVel (o - o') (o - o') := (ipVel_self (o - o')).symm
  rw [e1, e2]
  nlinarith [mul_nonneg hdt (neg_nonneg.2 h2), mul_nonneg hdt (neg_nonneg.2 h4)]

/-- C152: a velocity that does not vary in the vertical stays as it is without wind, friction and drag. -/
theorem C152_uniform (D : Damped T mu P H kappa alpha) (hw : ∀ x, 0 < e.m.wC x)
    (hdef : ∀ u ∈ H, (∀ x i, (u i (.cell x)).v = 0) → u = 0) {dt : ℝ} (hdt : 0 ≤ dt) {semi : Bool}
    {old new : Vc e.m} (hg : ∀ i x, (old i x).g 2 = 0) (hj : ∀ i s, e.hor s = true → (old i (.plus s)).v = (old i (.minus s)).v)
    (ht : P.wind = none) (hc : P.linDrag = none) (h : Step T false mu P bc dt semi H old new) : new = old := by
  have hz : new - old ∈ H := by
    obtain ⟨k, hk, rfl, -⟩ := step_iff.1 h
    rw [add_sub_cancel_left]
    exact H.smul_mem _ hk
  have h1 := step_form h hz
  have hf : Mom3.bottomFriction (vertTerm T false) (implFields mu P) new old (new - old) = 0 := by simp [Mom3.bottomFriction, vertTerm]
  have hl : Mom3.linearDrag (implFields mu P) new (new - old) = 0 := by simp [Mom3.linearDrag, implFields, hc]
  have ht' : Mom3.windStress (vertTerm T false) (implFields mu P) (new - old) = 0 := by simp [Mom3.windStress, implFields, ht]
  rw [res_eq, hf, hl, ht', add_zero, add_zero, add_zero] at h1
  have h2 := D.viscosity false hz
  rw [(vViscosity_bilin _ _).sub_left] at h2
  have h3 : Mom3.vViscosity (vertTerm T false) (implFields mu P) old (new - old) = 0 := by
    rw [Mom3.vViscosity_eq _ _ _ _ 0]
    refine sum_eq_zero fun c _ => ?_
    rw [Tracer3.C88_symmetric]
    exact Tracer3.C88_columns _ _ _ _ D.flat (hg c) (hj c)
  have h4 : ipVel (new - old) (new - old) = ipVel new (new - old) - ipVel old (new - old) := bilin_ipVel.sub_left _ _ _
  have h5 : ∑ i, ip ((new - old) i) ((new - old) i) = 0 :=
    le_antisymm (show ipVel (new - old) (new - old) ≤ 0 by rw [h4, h1]; nlinarith [mul_nonneg hdt (neg_nonneg.2 h2)])
      (isEnergy_ipVel.nonneg (new - old))
  have h6 := (sum_eq_zero_iff_of_nonneg fun i _ => ip_nonneg ((new - old) i)).1 h5
  exact sub_eq_zero.1 (hdef _ hz fun y i => ip_zero hw (h6 i (mem_univ i)) y)

/-- C152: in the mode-split model the step acts on the whole velocity: deviation and depth average together lose energy, and without wind,
friction and drag a deviation with zero mean over the column (`w` does not vary in the vertical) keeps it. -/
theorem C152_split (D : Damped T mu P H kappa alpha) {dt : ℝ} (hdt : 0 ≤ dt) {semi : Bool} {dav dev dev' : Vc e.m} (ho : dev + dav ∈ H)
    (ht : P.wind = none) (h : SplitStep T friction mu P bc dt semi H dav dev dev') :
    (e.m.dx fun x => ∑ i, (dev' i (.cell x) + dav i (.cell x)).v ^ 2) ≤ (e.m.dx fun x => ∑ i, (dev i (.cell x) + dav i (.cell x)).v ^ 2) ∧
    (friction = false → P.linDrag = none → ∀ w ∈ H, (∀ i x, (w i x).g 2 = 0) →
      (∀ i s, e.hor s = true → (w i (.plus s)).v = (w i (.minus s)).v) →
      (∑ i, e.m.dx fun x => (dev' i (.cell x)).v * (w i (.cell x)).v) = ∑ i, e.m.dx fun x => (dev i (.cell x)).v * (w i (.cell x)).v) := by
  obtain ⟨new, hs, rfl⟩ := h
  constructor
  · have h1 := C152_energy D hdt ho ht hs
    have h2 : new - dav + dav = new := sub_add_cancel _ _
    have h3 : (e.m.dx fun x => ∑ i, ((new - dav) i (.cell x) + dav i (.cell x)).v ^ 2) =
        e.m.dx fun x => ∑ i, ((new - dav + dav) i (.cell x)).v ^ 2 := rfl
    rw [h3, h2]
    exact h1
  · rintro rfl hc w hw hg hj
    have h1 := step_form hs hw
    rw [res_eq, Mom3.C90_columns _ _ new w D.flat hg hj] at h1
    have hf : Mom3.bottomFriction (vertTerm T false) (implFields mu P) new (dev + dav) w = 0 := by simp [Mom3.bottomFriction, vertTerm]
    have hl : Mom3.linearDrag (implFields mu P) new w = 0 := by simp [Mom3.linearDrag, implFields, hc]
    have ht' : Mom3.windStress (vertTerm T false) (implFields mu P) w = 0 := by simp [Mom3.windStress, implFields, ht]
    rw [hf, hl, ht', bilin_ipVel.add_left] at h1
    have h2 : ipVel (new - dav) w = ipVel new w - ipVel dav w := bilin_ipVel.sub_left _ _ _
    show ipVel (new - dav) w = ipVel dev w
    rw [h2]
    linarith

end Step

/-! ### Example: a tank of two layers, the upper one sheared -/

section Example

open Mom3

/-- The part of a velocity in the direction of the tank: uniform in the lower, with shear in the upper layer,
without a jump for `p.2 = 0`. -/
noncomputable def along (p : ℝ × ℝ) : Sc tank.m := tankField ⟨p.1, 0, 0, 0⟩ ⟨p.1 + p.2, 0, 0, p.2⟩

theorem along_add (p q : ℝ × ℝ) : along (p + q) = along p + along q := by
  have k0 : ∀ (a a' x y z : ℝ), (⟨a + a', 0, 0, 0⟩ : Lin).jet x y z = (⟨a, 0, 0, 0⟩ : Lin).jet x y z + (⟨a', 0, 0, 0⟩ : Lin).jet x y z :=
    fun a a' x y z => by
      apply Jet.ext
      · simp [Lin.jet]
      · funext i; fin_cases i <;> simp [Lin.jet]
  have key : ∀ (a a' d d' x y z : ℝ), (⟨a + a' + (d + d'), 0, 0, d + d'⟩ : Lin).jet x y z =
      (⟨a + d, 0, 0, d⟩ : Lin).jet x y z + (⟨a' + d', 0, 0, d'⟩ : Lin).jet x y z :=
    fun a a' d d' x y z => by
      apply Jet.ext
      · simp [Lin.jet]; ring
      · funext i; fin_cases i <;> simp [Lin.jet]
  funext x
  cases x with
  | cell c => cases c; exacts [k0 _ _ _ _ _, key _ _ _ _ _ _ _]
  | plus c => cases c; exact k0 _ _ _ _ _
  | minus c => cases c; exact key _ _ _ _ _ _ _
  | bnd c => cases c <;> first | exact k0 _ _ _ _ _ | exact key _ _ _ _ _ _ _

theorem along_smul (a : ℝ) (p : ℝ × ℝ) : along (a • p) = a • along p := by
  have key : ∀ (b d x y z : ℝ), (⟨a * b + a * d, 0, 0, a * d⟩ : Lin).jet x y z = a • (⟨b + d, 0, 0, d⟩ : Lin).jet x y z :=
    fun b d x y z => by
      apply Jet.ext
      · show _ = a * ((⟨b + d, 0, 0, d⟩ : Lin).jet x y z).v
        simp [Lin.jet]; ring
      · funext i
        show _ = a * ((⟨b + d, 0, 0, d⟩ : Lin).jet x y z).g i
        fin_cases i <;> simp [Lin.jet]
  have k0 : ∀ (b x y z : ℝ), (⟨a * b, 0, 0, 0⟩ : Lin).jet x y z = a • (⟨b, 0, 0, 0⟩ : Lin).jet x y z :=
    fun b x y z => by simpa using key b 0 x y z
  funext x
  cases x with
  | cell c => cases c; exacts [k0 _ _ _ _, key _ _ _ _ _]
  | plus c => cases c; exact k0 _ _ _ _
  | minus c => cases c; exact key _ _ _ _ _
  | bnd c => cases c <;> first | exact k0 _ _ _ _ | exact key _ _ _ _ _

noncomputable def profile : ℝ × ℝ →ₗ[ℝ] Vc tank.m where
  toFun p := fun i => if i = 0 then along p else 0
  map_add' p q := by
    funext i
    show (if i = 0 then along (p + q) else 0) = (if i = 0 then along p else 0) + (if i = 0 then along q else 0)
    split
    · exact along_add p q
    · exact (add_zero 0).symm
  map_smul' a p := by
    funext i
    show (if i = 0 then along (a • p) else 0) = a • (if i = 0 then along p else 0)
    split
    · exact along_smul a p
    · exact (smul_zero a).symm

/-- The velocities of the example. -/
noncomputable def profiles : Submodule ℝ (Vc tank.m) := LinearMap.range profile

/-- Wind along the tank, a rough bed. -/
noncomputable def windy : Friction tank where
  wind := some fun i => cst tank.m (if i = 0 then 1 else 0)
  roughness := some (cst tank.m (1 / 10))

theorem profiles_trace (u : Vc tank.m) (hu : u ∈ profiles) (c : Fin 3) : Tracer3.TraceBoundV (cst tank.m 1) (u c) 5 := by
  obtain ⟨p, rfl⟩ := hu
  unfold Tracer3.TraceBoundV
  refine (tank_dSh _).le.trans (le_trans ?_ (mul_le_mul_of_nonneg_left (tank_dx _).ge (by norm_num)))
  fin_cases c
  · change (3 / 2 : ℝ) / 1 * 1 * ((0 * 1) ^ 2 / 1 ^ 2) + 1 / 1 * 1 * ((p.2 * 1) ^ 2 / 1 ^ 2) ≤
      5 * (3 / 2 * (1 * 0 ^ 2) + 1 * p.2 ^ 2)
    nlinarith [sq_nonneg p.2]
  · change (3 / 2 : ℝ) / 1 * 1 * ((0 * 1) ^ 2 / 1 ^ 2) + 1 / 1 * 1 * ((0 * 1) ^ 2 / 1 ^ 2) ≤ 5 * (3 / 2 * (1 * 0 ^ 2) + 1 * 0 ^ 2)
    norm_num
  · change (3 / 2 : ℝ) / 1 * 1 * ((0 * 1) ^ 2 / 1 ^ 2) + 1 / 1 * 1 * ((0 * 1) ^ 2 / 1 ^ 2) ≤ 5 * (3 / 2 * (1 * 0 ^ 2) + 1 * 0 ^ 2)
    norm_num

theorem damped (P : Friction tank) (hd : P.drag = none) (hl : P.linDrag = none) : Damped exTerm (some (cst tank.m 1)) P profiles 5 5 where
  flat := tank_flat
  vol s := by
    change (0 : ℝ) < 3 / 2 ∧ (0 : ℝ) < 1 ∧ (0 : ℝ) < 1
    norm_num
  cell m hm x := by cases hm; simp
  side m hm s := by cases hm; simp
  pos := by norm_num
  trace m hm u hu c := by cases hm; exact profiles_trace u hu c
  sipg s := by simp [exTerm]
  enough := by simp [exTerm]; norm_num
  drag d h := by rw [hd] at h; cases h
  lin d h := by rw [hl] at h; cases h

theorem tank_pos (x : tank.m.C) : 0 < tank.m.wC x := by
  cases x
  · show (0 : ℝ) < 3 / 2
    norm_num
  · exact one_pos

theorem profiles_def (u : Vc tank.m) (hu : u ∈ profiles) (h : ∀ x i, (u i (.cell x)).v = 0) : u = 0 := by
  obtain ⟨p, rfl⟩ := hu
  have h1 : p.1 + 0 * (4 / 9) + 0 * (1 / 2) + 0 * (-(16 / 9)) = 0 := h TkC.lo 0
  have h2 : p.1 + p.2 + 0 * (1 / 2) + 0 * (1 / 2) + p.2 * (-(1 / 2)) = 0 := h TkC.up 0
  have : p = 0 := Prod.ext (by simpa using h1) (by show p.2 = 0; linarith)
  rw [this, map_zero]

/-- With the wind on, one step of any length has exactly one result. -/
example (dt : ℝ) (hdt : 0 ≤ dt) (old : Vc tank.m) :
    ∃! new, Step exTerm true (some (cst tank.m 1)) windy (fun _ => none) dt false profiles old new := by
  have : FiniteDimensional ℝ profiles := by unfold profiles; infer_instance
  exact C152_unique (damped windy rfl rfl) tank_pos profiles_def hdt false old

/-- Over a rough bed and without wind the flow loses energy in a step of one hour. -/
example (new : Vc tank.m) (h : Step exTerm true (some (cst tank.m 1)) { windy with wind := none } (fun _ => none) 3600 false profiles
    (profile (0, 1)) new) :
    (tank.m.dx fun x => ∑ i, (new i (.cell x)).v ^ 2) ≤ tank.m.dx fun x => ∑ i, (profile (0, 1) i (.cell x)).v ^ 2 :=
  C152_energy (damped _ rfl rfl) (by norm_num) ⟨_, rfl⟩ rfl h

/-- Uniform velocity along the tank. -/
theorem uniform_flat (i : Fin 3) : (∀ x, (profile (1, 0) i x).g 2 = 0) ∧
    ∀ s, tank.hor s = true → (profile (1, 0) i (.plus s)).v = (profile (1, 0) i (.minus s)).v := by
  fin_cases i
  · constructor
    · intro x
      cases x with
      | cell c => cases c <;> rfl
      | plus c => cases c; rfl
      | minus c => cases c; rfl
      | bnd c => cases c <;> rfl
    · intro s _
      cases s
      show (1 : ℝ) + 0 * (1 / 2) + 0 * (1 / 2) + 0 * (-1) = 1 + 0 + 0 * (1 / 2) + 0 * (1 / 2) + 0 * (-1)
      norm_num
  · exact ⟨fun _ => rfl, fun _ _ => rfl⟩
  · exact ⟨fun _ => rfl, fun _ _ => rfl⟩

/-- It stays as it is without wind and friction. -/
example (new : Vc tank.m) (h : Step exTerm false (some (cst tank.m 1)) {} (fun _ => none) 3600 true profiles (profile (1, 0)) new) :
    new = profile (1, 0) :=
  C152_uniform (damped _ rfl rfl) tank_pos profiles_def (by norm_num) (fun i => (uniform_flat i).1) (fun i => (uniform_flat i).2) rfl rfl h

/-- Wind, and quadratic and linear drag. -/
noncomputable def dragged : Friction tank where
  wind := some fun i => cst tank.m (if i = 0 then 1 else 0)
  drag := some (cst tank.m (1 / 400))
  linDrag := some (cst tank.m (1 / 100))

/-- The momentum along the tank changes by their integrals. -/
example (new : Vc tank.m) (h : Step exTerm true (some (cst tank.m 1)) dragged (fun _ => none) 3600 true profiles (profile (0, 1)) new) :=
  C152_columns (w := profile (1, 0)) tank_flat (P := dragged) (c := cst tank.m (1 / 100)) rfl rfl (show profile (1, 0) ∈ profiles from ⟨_, rfl⟩)
    (fun i => (uniform_flat i).1) (fun i => (uniform_flat i).2) (fun _ => 1 / 400) (fun _ _ => rfl) h

/-- Its energy is bounded by the work of the wind. -/
example (new : Vc tank.m) (h : Step exTerm true (some (cst tank.m 1)) windy (fun _ => none) 3600 true profiles (profile (0, 1)) new) :=
  C152_budget (damped windy rfl rfl) (by norm_num) (show profile (0, 1) ∈ profiles from ⟨_, rfl⟩) rfl
    (fun b => ((2 / 5 : ℝ) * 1 / dragDenom 1 (1 / 10)) ^ 2) (fun _ _ => rfl) h

/-- The same with the roughness. -/
example (new : Vc tank.m) (h : Step exTerm true (some (cst tank.m 1)) windy (fun _ => none) 3600 true profiles (profile (0, 1)) new) :=
  C152_rough (damped windy rfl rfl) (by norm_num) (show profile (0, 1) ∈ profiles from ⟨_, rfl⟩) rfl rfl rfl h

end Example

end Verif.Vert
