import Verif.Contract.Props2
import Verif.RK.Props
import Mathlib.LinearAlgebra.Dual.Lemmas
import Verif.Tracer2.Props5
import Verif.Tracer3.Props3

/-!
C127: tracers stepped implicitly, examples, and a parameter below one half.
-/

namespace Verif.Contract

open Finset Verif.Dg

theorem isEnergy_ip {d : ℕ} {m : Mesh d} : IsEnergy (ip (m := m)) :=
  ⟨⟨ip_left, ip_right⟩, ip_symm, ip_nonneg⟩

/-! ### Depth-averaged tracers -/

section Tracer2

open Verif.Tracer2

variable {m : Mesh 2}

/-- A tracer in water that flows without divergence and, at the boundaries, only out of the domain if at all; no tracer is
prescribed at the boundaries.  These are the conditions of C73 and C75, for the tracers of the function space `H`. -/
structure Carried (T : Tracer2.Term m) (F : Flow m) (mu : Option (Sc m)) (bc : ℕ → Option (BFuncs m)) (H : Submodule ℝ (Sc m)) :
    Prop where
  dg : T.dg = true
  flat : m.Flat
  unit : m.UnitNormals
  flow : ∀ u, F.uv = some u → (∀ s, jumpV (fun i => F.factor * u i) s = 0) ∧
    (∀ x, Dg.div (fun i => F.factor * u i) (.cell x) = 0) ∧ (∀ b, 0 ≤ qB F u b) ∧
    ∀ c ∈ H, DivExact m fun i => F.factor * u i * c * c
  lf : 0 ≤ F.lfFactor
  bc : ∀ j f, bc j = some f → NoVelocity f ∧ f.value = none ∧ ∃ q, f.diffFlux = some q ∧ ∀ b, q b = 0
  diff : ∀ mu', mu = some mu' → ∃ kappa alpha : ℝ, 0 < kappa ∧ kappa / 2 ≤ alpha * dofs T ∧
    (∀ s, alpha ≤ (T.sipg (.plus s)).v ∧ alpha ≤ (T.sipg (.minus s)).v) ∧
    (∀ s, 0 < m.volP s ∧ 0 < m.volM s ∧ 0 < m.areaS s) ∧ (∀ x, 0 ≤ (mu' (.cell x)).v) ∧
    (∀ s, 0 ≤ (mu' (.plus s)).v ∧ 0 ≤ (mu' (.minus s)).v) ∧ ∀ c ∈ H, TraceBound mu' c kappa

variable {T : Tracer2.Term m} {F : Flow m} {mu : Option (Sc m)} {bc : ℕ → Option (BFuncs m)} {H : Submodule ℝ (Sc m)}

theorem Carried.advFlux (C : Carried T F mu bc H) (u : Vc m) (c : Sc m) (k : ℕ) (b : m.B) :
    advBndFlux T F u bc c k b = (c (.bnd b)).v * ((u 0 (.bnd b)).v * m.nb b 0 + (u 1 (.bnd b)).v * m.nb b 1) := by
  unfold advBndFlux
  cases h : bc k with
  | none => rfl
  | some f =>
    obtain ⟨⟨h1, h2, h3⟩, h4, -⟩ := C.bc k f h
    simp only [bndFunctions, h1, h2, h3, h4]
    ring

theorem Carried.diffFlux (C : Carried T F mu bc H) (nu : Sc m) (c : Sc m) (k : ℕ) (b : m.B) : diffBndFlux T F nu bc c k b = 0 := by
  unfold diffBndFlux
  cases h : bc k with
  | none => rfl
  | some f =>
    obtain ⟨-, -, q, hq, h0⟩ := C.bc k f h
    simp only [hq, h0]

theorem Carried.hasEnergy (_ : Carried T F mu bc H) : HasEnergy (tracer2 T F mu bc) H id :=
  ⟨fun _ h => h, isEnergy_ip, fun _ _ => rfl⟩

theorem Carried.linear (C : Carried T F mu bc H) (v : Sc m) : Linear (tracer2 T F mu bc) id v := by
  have hf := C.advFlux
  have hd := C.diffFlux
  refine ⟨fun y => ?_, fun x => ?_⟩
  · simp only [tracer2, id]
    refine IsLin.add ?_ ?_
    · unfold advection
      cases F.uv with
      | none => exact IsLin.zero
      | some u =>
        cases T.dg <;> cases T.lf <;>
          simp only [if_true, if_false, Bool.false_eq_true, bndLoop_eq, hf, jump] <;> lin
    · unfold diffusion
      cases mu with
      | none => exact IsLin.zero
      | some nu =>
        cases T.dg <;>
          simp only [if_true, if_false, Bool.false_eq_true, bndLoop_eq, hd, zero_mul, neg_zero, mul_zero, jumpN, avgFlux] <;> lin
  · simp only [tracer2, id]
    refine IsLin.add ?_ ?_
    · unfold advection
      cases F.uv with
      | none => exact IsLin.zero
      | some u =>
        cases T.dg <;> cases T.lf <;>
          simp only [if_true, if_false, Bool.false_eq_true, bndLoop_eq, hf, jump, Pi.mul_apply, Jet.mul_g] <;> lin
    · unfold diffusion
      cases mu with
      | none => exact IsLin.zero
      | some nu =>
        cases T.dg <;>
          simp only [if_true, if_false, Bool.false_eq_true, bndLoop_eq, hd, zero_mul, neg_zero, mul_zero, jumpN, avgFlux] <;> lin

theorem Carried.passive (C : Carried T F mu bc H) (v : Sc m) : Passive (tracer2 T F mu bc) H id v := by
  intro c hc
  have h1 : advection T F bc c c ≤ 0 := by
    cases hu : F.uv with
    | none => unfold advection; rw [hu]
    | some u =>
      obtain ⟨a, b, d, e⟩ := C.flow u hu
      exact C73_decay T F bc u c hu C.dg C.flat a b C.lf (fun j f h => (C.bc j f h).1) d (e c hc)
  have h2 : diffusion T F mu bc c c ≤ 0 := by
    cases hm : mu with
    | none => exact le_of_eq rfl
    | some nu =>
      obtain ⟨kappa, alpha, k0, ka, hs, hv, hc0, hs0, ht⟩ := C.diff nu hm
      exact C75_dissipation T F nu bc c kappa alpha C.flat C.unit hv hc0 hs0 k0 (ht c hc) hs ka
        fun j f h => (C.bc j f h).2.2
  exact add_nonpos h1 h2

/-- C127: `CrankNicolson`, `BackwardEuler` and `DIRK22` do not increase the square of a tracer, for any time step. -/
theorem C127_tracer (C : Carried T F mu bc H) (dt : ℝ) (semi : Bool) (old new : Sc m) (ho : old ∈ H) (hdt : 0 ≤ dt)
    (h : (∃ theta, 1 / 2 ≤ theta ∧ ThetaStep (tracer2 T F mu bc) (tracer2 T F mu bc) dt theta semi H old new) ∨
      UStep (fun _ => tracer2 T F mu bc) RK.backwardEuler dt semi H old new ∨
      UStep (fun _ => tracer2 T F mu bc) RK.dirk22 dt semi H old new) :
    (m.dx fun x => (new (.cell x)).v ^ 2) ≤ m.dx fun x => (old (.cell x)).v ^ 2 := by
  have e : ∀ a : Sc m, (m.dx fun x => (a (.cell x)).v ^ 2) = ip a a := fun a => dx_congr fun x => sq _
  have hf : Fixed (tracer2 T F mu bc) semi := Or.inr fun _ _ _ _ => rfl
  rw [e, e]
  rcases h with ⟨theta, ht, h⟩ | h | h
  · exact C127_theta _ H id dt theta semi old new C.hasEnergy (C.linear old) hf (C.passive old) ho hdt ht h
  · exact C127_backward (fun _ => tracer2 T F mu bc) H id dt semi old new C.hasEnergy (fun v _ => C.passive v) ho hdt h
  · exact C127_dirk22_uform _ H id dt semi old new C.hasEnergy (C.linear old) hf (C.passive old) ho hdt h

end Tracer2

/-! ### Vertical diffusion -/

section Tracer3

open Verif.Tracer3 Verif.Ext

variable {e : Mesh3}

/-- C127: the implicit solve for the vertical diffusion of a tracer (`BackwardEuler`, coupled_timeintegrator.py:411 and 573) does not increase its square, for any time step; the fields are those of
coupled_timeintegrator.py:258-261, with any diffusivity that is not negative, and the penalty is that of C88. -/
theorem C127_vertical (T : Tracer3.Term e) (F : Fields e) (bc : ℕ → Option (BFuncs e)) (mu : Sc e.m) (H : Submodule ℝ (Sc e.m))
    (kappa alpha dt : ℝ) (semi : Bool) (old new : Sc e.m)
    (hF : F.uv = none ∧ F.w = none ∧ F.diffH = none ∧ F.source = none) (hmu : F.diffV = some mu)
    (hflat : e.m.Flat) (hvol : ∀ s, 0 < e.m.volP s ∧ 0 < e.m.volM s ∧ 0 < e.m.areaS s)
    (hmuC : ∀ x, 0 ≤ (mu (.cell x)).v) (hmuS : ∀ s, 0 ≤ (mu (.plus s)).v ∧ 0 ≤ (mu (.minus s)).v)
    (hkappa : 0 < kappa) (htrace : ∀ c ∈ H, TraceBoundV mu c kappa)
    (hsipg : ∀ s, alpha ≤ (T.sipgV (.plus s)).v ∧ alpha ≤ (T.sipgV (.minus s)).v)
    (halpha : kappa / 2 ≤ alpha * (T.q + 1) ^ 2)
    (ho : old ∈ H) (hdt : 0 ≤ dt)
    (h : TendencyStep (fun _ => tracer3 T F bc) RK.backwardEuler dt semi H old new) :
    (e.m.dx fun x => (new (.cell x)).v ^ 2) ≤ e.m.dx fun x => (old (.cell x)).v ^ 2 := by
  obtain ⟨h1, h2, h3, h4⟩ := hF
  have hr : ∀ c w, Tracer3.residual T F bc c w = vDiffusion T F c w := fun c w => by
    simp [Tracer3.residual, hAdvection, vAdvection, hDiffusion, Tracer3.source, h1, h2, h3, h4]
  have hE : HasEnergy (tracer3 T F bc) H id := ⟨fun _ h => h, isEnergy_ip, fun _ _ => rfl⟩
  have hp : ∀ v, Passive (tracer3 T F bc) H id v := fun v c hc => by
    show Tracer3.residual T F bc c c ≤ 0
    rw [hr]
    exact C88_dissipation T F mu c kappa alpha hmu hflat hvol hmuC hmuS hkappa (htrace c hc) hsipg halpha
  have hsq : ∀ a : Sc e.m, (e.m.dx fun x => (a (.cell x)).v ^ 2) = ip a a := fun a => dx_congr fun x => sq _
  rw [hsq, hsq]
  exact C127_algebraic _ H id RK.backwardEuler dt semi old new ip (fun _ _ _ => rfl) (fun _ => hE) (fun _ => hp) ho hdt
    RK.C21_backwardEuler.1 algStable_backwardEuler h

end Tracer3

/-! ### Solvability -/

section Solve

variable {V : Type*} [AddCommGroup V] [Module ℝ V]

/-- C127: the system of a step of `CrankNicolson` has exactly one solution, for any time step and any parameter that is not
negative: the solver cannot meet a singular matrix. -/
theorem C127_unique (E : Eqn V) (H : Submodule ℝ V) [FiniteDimensional ℝ H] (W : V → V) (dt theta : ℝ) (semi : Bool) (old : V)
    (hE : HasEnergy E H W) (hl : Linear E W old) (hf : Fixed E semi) (hp : Passive E H W old)
    (hW : ∀ w ∈ H, ∃ y ∈ H, W y = w) (hdef : ∀ x ∈ H, E.mass x (W x) = 0 → x = 0)
    (hdt : 0 ≤ dt) (ht : 0 ≤ theta) :
    ∃! new, ThetaStep E E dt theta semi H old new := by
  have he := hE.energy
  let e := fun x y => E.mass x (W y)
  let r := fun x y => E.res x old (W y)
  have hr : Bilin fun x y => E.res x old (W y) := hl
  let L : H →ₗ[ℝ] Module.Dual ℝ H :=
    { toFun := fun x =>
        { toFun := fun y => e x y - dt * theta * r x y
          map_add' := fun y z => by
            simp only [Submodule.coe_add, e, r]
            rw [he.1.add_right, hr.add_right]; ring
          map_smul' := fun a y => by
            simp only [Submodule.coe_smul, e, r, RingHom.id_apply, smul_eq_mul]
            rw [he.1.smul_right, hr.smul_right]; ring }
      map_add' := fun x z => by
        ext y
        simp only [Submodule.coe_add, e, r, LinearMap.coe_mk, AddHom.coe_mk, LinearMap.add_apply]
        rw [he.1.add_left, hr.add_left]; ring
      map_smul' := fun a x => by
        ext y
        simp only [Submodule.coe_smul, e, r, LinearMap.coe_mk, AddHom.coe_mk, LinearMap.smul_apply, RingHom.id_apply,
          smul_eq_mul]
        rw [he.1.smul_left, hr.smul_left]; ring }
  have hL : ∀ x y : H, L x y = e x y - dt * theta * r x y := fun _ _ => rfl
  have hinj : Function.Injective L := by
    rw [← LinearMap.ker_eq_bot, LinearMap.ker_eq_bot']
    intro x hx
    have h1 : L x x = 0 := by rw [hx]; rfl
    rw [hL] at h1
    have h2 : r x x ≤ 0 := hp x x.2
    have h3 : 0 ≤ e x x := he.nonneg x
    have h4 : e x x = 0 := by nlinarith [mul_nonneg hdt ht]
    exact Subtype.ext (hdef x x.2 h4)
  have hsurj : Function.Surjective L :=
    (LinearMap.injective_iff_surjective_of_finrank_eq_finrank Subspace.dual_finrank_eq.symm).1 hinj
  let R : Module.Dual ℝ H :=
    { toFun := fun y => e old y + dt * (1 - theta) * r old y
      map_add' := fun y z => by
        simp only [Submodule.coe_add, e, r]
        rw [he.1.add_right, hr.add_right]; ring
      map_smul' := fun a y => by
        simp only [Submodule.coe_smul, e, r, RingHom.id_apply, smul_eq_mul]
        rw [he.1.smul_right, hr.smul_right]; ring }
  have hR : ∀ y : H, R y = e old y + dt * (1 - theta) * r old y := fun _ => rfl
  have key : ∀ x : H, ThetaStep E E dt theta semi H old x ↔ L x = R := by
    intro x
    constructor
    · intro h
      ext y
      have := h.2 (W y) (hE.maps y y.2)
      rw [hf.eq] at this
      rw [hL, hR]
      simp only [e, r]
      linarith
    · intro h
      refine ⟨x.2, fun w hw => ?_⟩
      obtain ⟨y, hy, rfl⟩ := hW w hw
      have := LinearMap.congr_fun h ⟨y, hy⟩
      rw [hL, hR] at this
      rw [hf.eq]
      simp only [e, r] at this
      linarith
  obtain ⟨x, hx⟩ := hsurj R
  refine ⟨x, (key x).2 hx, fun z hz => ?_⟩
  have := (key ⟨z, hz.1⟩).1 hz
  exact congrArg Subtype.val (hinj (this.trans hx.symm))

end Solve

/-- C127: also for a tracer. -/
theorem C127_tracer_unique {m : Mesh 2} {T : Tracer2.Term m} {F : Tracer2.Flow m} {mu : Option (Sc m)}
    {bc : ℕ → Option (Tracer2.BFuncs m)} {H : Submodule ℝ (Sc m)} (C : Carried T F mu bc H) [FiniteDimensional ℝ H]
    (dt theta : ℝ) (semi : Bool) (old : Sc m) (hdef : ∀ c ∈ H, (∀ x, (c (.cell x)).v = 0) → c = 0)
    (hw : ∀ x, 0 < m.wC x) (hdt : 0 ≤ dt) (ht : 0 ≤ theta) :
    ∃! new, ThetaStep (tracer2 T F mu bc) (tracer2 T F mu bc) dt theta semi H old new := by
  refine C127_unique _ _ id dt theta semi old C.hasEnergy (C.linear old) (Or.inr fun _ _ _ _ => rfl) (C.passive old)
    (fun w hw => ⟨w, hw, rfl⟩) (fun c hc h0 => hdef c hc fun x => ?_) hdt ht
  have y := (sum_eq_zero_iff_of_nonneg fun x _ => mul_nonneg (hw x).le (mul_self_nonneg _)).1 h0 x (mem_univ x)
  exact mul_self_eq_zero.1 ((mul_eq_zero.1 y).resolve_left (hw x).ne')

section Waves

variable {m : Mesh 2} {T : Swe.Term m} {K : Swe.Coeffs m} {bc : ℕ → Option (Swe.Funcs m)} {Hu : Submodule ℝ (Vc m)}
  {He : Submodule ℝ (Sc m)} {H : ℝ}

theorem Basin.onto (B : Basin T K bc Hu He H) (w : State m) (hw : w ∈ Hu.prod He) :
    ∃ y ∈ Hu.prod He, weight T.g H y = w := by
  refine ⟨(H⁻¹ • w.1, T.g⁻¹ • w.2), ⟨Hu.smul_mem _ hw.1, He.smul_mem _ hw.2⟩, ?_⟩
  show (H • H⁻¹ • w.1, T.g • T.g⁻¹ • w.2) = w
  rw [smul_inv_smul₀ B.depth_pos.ne', smul_inv_smul₀ B.g_pos.ne']

theorem Basin.definite (B : Basin T K bc Hu He H)
    (hdef : ∀ x ∈ Hu.prod He, (∀ c, (∀ i, (x.1 i (.cell c)).v = 0) ∧ (x.2 (.cell c)).v = 0) → x = 0)
    (hw : ∀ c, 0 < m.wC c) (x : State m) (hx : x ∈ Hu.prod He) (h0 : (swe T K bc).mass x (weight T.g H x) = 0) : x = 0 := by
  refine hdef x hx fun c => ?_
  rw [B.energy, waveEnergy] at h0
  have n1 : 0 ≤ m.dx fun c => ∑ i, (x.1 i (.cell c)).v ^ 2 := dx_nonneg fun c => sum_nonneg fun i _ => sq_nonneg _
  have n2 : 0 ≤ m.dx fun c => (x.2 (.cell c)).v ^ 2 := dx_nonneg fun c => sq_nonneg _
  have p1 := B.depth_pos
  have p2 := B.g_pos
  have z1 : (m.dx fun c => ∑ i, (x.1 i (.cell c)).v ^ 2) = 0 := by
    nlinarith [mul_nonneg p1.le n1, mul_nonneg p2.le n2]
  have z2 : (m.dx fun c => (x.2 (.cell c)).v ^ 2) = 0 := by
    nlinarith [mul_nonneg p1.le n1, mul_nonneg p2.le n2]
  have y1 := (sum_eq_zero_iff_of_nonneg fun c _ => mul_nonneg (hw c).le (sum_nonneg fun i _ => sq_nonneg _)).1 z1 c
    (mem_univ c)
  have y2 := (sum_eq_zero_iff_of_nonneg fun c _ => mul_nonneg (hw c).le (sq_nonneg _)).1 z2 c (mem_univ c)
  have x1 := (mul_eq_zero.1 y1).resolve_left (hw c).ne'
  have x2 := (mul_eq_zero.1 y2).resolve_left (hw c).ne'
  refine ⟨fun i => ?_, by simpa using x2⟩
  have := (sum_eq_zero_iff_of_nonneg fun i _ => sq_nonneg _).1 x1 i (mem_univ i)
  simpa using this

/-- C127: every step of `CrankNicolson` for waves in a basin has exactly one solution, if the quadrature rule tells functions
of the spaces from zero. -/
theorem C127_waves_unique (B : Basin T K bc Hu He H) [FiniteDimensional ℝ (Hu.prod He)] (dt theta : ℝ) (semi : Bool)
    (old : State m) (hN : semi = true ∨ NoDrag K bc)
    (hdef : ∀ x ∈ Hu.prod He, (∀ c, (∀ i, (x.1 i (.cell c)).v = 0) ∧ (x.2 (.cell c)).v = 0) → x = 0)
    (hw : ∀ c, 0 < m.wC c) (hdt : 0 ≤ dt) (ht : 0 ≤ theta) :
    ∃! new, ThetaStep (swe T K bc) (swe T K bc) dt theta semi (Hu.prod He) old new := by
  refine C127_unique _ _ _ dt theta semi old B.hasEnergy (B.linear' old) (B.fixed semi hN) (B.passive old) B.onto
    (B.definite hdef hw) hdt ht

end Waves

/-! ### A parameter below one half -/

/-- Inertial motion: the velocity turns, without any force but the Coriolis force of frequency one. -/
def turn : Eqn (ℝ × ℝ) where
  mass x y := x.1 * y.1 + x.2 * y.2
  inner x y := x.1 * y.1 + x.2 * y.2
  res x _ y := x.2 * y.1 - x.1 * y.2

/-- C127: with a parameter below one half energy grows in every step of any length, already for inertial motion.  The
options accept no such parameter (options.py:77-78). -/
theorem C127_below_half (dt theta : ℝ) (semi : Bool) (old new : ℝ × ℝ) (hdt : 0 < dt) (ht : theta < 1 / 2) (h0 : old ≠ 0)
    (h : ThetaStep turn turn dt theta semi ⊤ old new) :
    turn.mass old old < turn.mass new new := by
  obtain ⟨a, b⟩ := old
  obtain ⟨x, y⟩ := new
  have hw := fun w => h.2 w trivial
  have h1 := hw (1, 0)
  have h2 := hw (0, 1)
  simp only [turn, mul_one, mul_zero, add_zero, zero_add, sub_zero, zero_sub] at h1 h2 ⊢
  have e1 : x - a = dt * (theta * y + (1 - theta) * b) := by linarith
  have e2 : y - b = -dt * (theta * x + (1 - theta) * a) := by linarith
  have key : x * x + y * y - (a * a + b * b) = (1 - 2 * theta) * ((x - a) ^ 2 + (y - b) ^ 2) := by
    have : (x - a) * (theta * x + (1 - theta) * a) + (y - b) * (theta * y + (1 - theta) * b) = 0 := by
      rw [e1, e2]; ring
    nlinarith
  have hne : 0 < (x - a) ^ 2 + (y - b) ^ 2 := by
    by_contra hn
    have k1 : x - a = 0 := by nlinarith [sq_nonneg (x - a), sq_nonneg (y - b)]
    have k2 : y - b = 0 := by nlinarith [sq_nonneg (x - a), sq_nonneg (y - b)]
    have hx : x = a := by linarith
    have hy : y = b := by linarith
    subst hx hy
    rw [k1] at e1
    rw [k2] at e2
    have l1 : dt * y = 0 := by linarith
    have l2 : dt * x = 0 := by linarith
    have m1 : y = 0 := by rcases mul_eq_zero.1 l1 with h | h; exact absurd h hdt.ne'; exact h
    have m2 : x = 0 := by rcases mul_eq_zero.1 l2 with h | h; exact absurd h hdt.ne'; exact h
    exact h0 (by rw [m1, m2]; rfl)
  have : 0 < (1 - 2 * theta) * ((x - a) ^ 2 + (y - b) ^ 2) := mul_pos (by linarith) hne
  linarith

/-- The hypotheses of `C127_below_half` hold: the explicit step of length one doubles the energy. -/
example : ThetaStep turn turn 1 0 false ⊤ (1, 0) (1, -1) ∧ turn.mass (1, -1) (1, -1) = 2 := by
  refine ⟨⟨trivial, fun w _ => ?_⟩, ?_⟩
  · simp [turn]
  · norm_num [turn]

/-! ### Examples -/

/-- The functions on the square that are linear in both triangles. -/
noncomputable def linears : Submodule ℝ (Sc square) where
  carrier := {f | ∃ p q : Quad, (p.d = 0 ∧ p.e = 0 ∧ p.f = 0) ∧ (q.d = 0 ∧ q.e = 0 ∧ q.f = 0) ∧ f = squareField p q}
  zero_mem' := ⟨⟨0, 0, 0, 0, 0, 0⟩, ⟨0, 0, 0, 0, 0, 0⟩, ⟨rfl, rfl, rfl⟩, ⟨rfl, rfl, rfl⟩, squareField_cst 0⟩
  add_mem' := by
    rintro _ _ ⟨p, q, hp, hq, rfl⟩ ⟨r, s, hr, hs, rfl⟩
    refine ⟨⟨p.a + r.a, p.b + r.b, p.c + r.c, 0, 0, 0⟩, ⟨q.a + s.a, q.b + s.b, q.c + s.c, 0, 0, 0⟩, ⟨rfl, rfl, rfl⟩,
      ⟨rfl, rfl, rfl⟩, ?_⟩
    obtain ⟨hp1, hp2, hp3⟩ := hp
    obtain ⟨hq1, hq2, hq3⟩ := hq
    obtain ⟨hr1, hr2, hr3⟩ := hr
    obtain ⟨hs1, hs2, hs3⟩ := hs
    have key : ∀ (p r : Quad) (x y : ℝ), p.d = 0 → p.e = 0 → p.f = 0 → r.d = 0 → r.e = 0 → r.f = 0 →
        p.jet x y + r.jet x y = (⟨p.a + r.a, p.b + r.b, p.c + r.c, 0, 0, 0⟩ : Quad).jet x y := by
      intro p r x y h1 h2 h3 h4 h5 h6
      apply Jet.ext
      · simp [Quad.jet, h1, h2, h3, h4, h5, h6]; ring
      · funext i
        fin_cases i <;> simp [Quad.jet, h1, h2, h3, h4, h5, h6]
    funext x
    cases x with
    | cell c => cases c <;> simp only [Pi.add_apply, squareField] <;> apply key <;> assumption
    | plus c => cases c <;> simp only [Pi.add_apply, squareField] <;> apply key <;> assumption
    | minus c => cases c <;> simp only [Pi.add_apply, squareField] <;> apply key <;> assumption
    | bnd c => cases c <;> simp only [Pi.add_apply, squareField] <;> apply key <;> assumption
  smul_mem' := by
    rintro a _ ⟨p, q, hp, hq, rfl⟩
    refine ⟨⟨a * p.a, a * p.b, a * p.c, 0, 0, 0⟩, ⟨a * q.a, a * q.b, a * q.c, 0, 0, 0⟩, ⟨rfl, rfl, rfl⟩,
      ⟨rfl, rfl, rfl⟩, ?_⟩
    obtain ⟨hp1, hp2, hp3⟩ := hp
    obtain ⟨hq1, hq2, hq3⟩ := hq
    have key : ∀ (p : Quad) (x y : ℝ), p.d = 0 → p.e = 0 → p.f = 0 →
        a • p.jet x y = (⟨a * p.a, a * p.b, a * p.c, 0, 0, 0⟩ : Quad).jet x y := by
      intro p x y h1 h2 h3
      apply Jet.ext
      · show a * (p.jet x y).v = _
        simp [Quad.jet, h1, h2, h3]; ring
      · funext i
        show a * (p.jet x y).g i = _
        fin_cases i <;> simp [Quad.jet, h1, h2, h3]
    funext x
    cases x with
    | cell c => cases c <;> simp only [Pi.smul_apply, squareField] <;> apply key <;> assumption
    | plus c => cases c <;> simp only [Pi.smul_apply, squareField] <;> apply key <;> assumption
    | minus c => cases c <;> simp only [Pi.smul_apply, squareField] <;> apply key <;> assumption
    | bnd c => cases c <;> simp only [Pi.smul_apply, squareField] <;> apply key <;> assumption

/-- Waves with rotation, quadratic and linear drag and one turbine farm. -/
noncomputable def exCoeffs : Swe.Coeffs square :=
  { Swe.noCoeffs with
    coriolis := some (cst square 1), cd := some fun _ => 1 / 400, linear := some (cst square 2)
    farms := [⟨fun _ => true, fun _ => 3, fun _ _ => 1⟩] }

/-- The conditions of `Basin` hold on the square for discontinuous linear functions. -/
theorem exBasin : Basin Swe.exTerm exCoeffs (fun _ => none) (Submodule.pi Set.univ fun _ => linears) linears 10 where
  linear := ⟨rfl, rfl, rfl⟩
  depth _ := rfl
  g_pos := by norm_num [Swe.exTerm]
  depth_pos := by norm_num
  closed _ _ _ h := by simp at h
  flat := square_flat
  unit := square_unit
  uDg := rfl
  exact _ u hu eta he := by
    obtain ⟨p, q, hp, hq, rfl⟩ := he
    have h : ∀ i, ∃ r s : Quad, squareField p q * u i = squareField r s := fun i => by
      obtain ⟨r, s, hr, hs, e⟩ := hu i trivial
      exact ⟨_, _, by rw [e, squareField_mul p q r s hp hq hr hs]⟩
    choose r s hrs using h
    simp only [hrs]
    exact square_divExact r s
  free := ⟨rfl, rfl, rfl, rfl, rfl⟩
  drag cd h x := by cases h; norm_num
  lindrag c h x := by cases h; simp
  walldrag k l cd h := by simp at h
  farms F h := by
    obtain rfl : F = _ := List.mem_singleton.1 h
    exact ⟨fun _ _ => by norm_num, fun _ => by norm_num⟩
  visc u _ eta old := le_of_eq rfl

/-- The energy of these waves does not grow over any number of steps. -/
example (u : ℕ → State square) (h0 : u 0 ∈ (Submodule.pi Set.univ fun _ => linears).prod linears)
    (h : ∀ n, ThetaStep (swe Swe.exTerm exCoeffs fun _ => none) (swe Swe.exTerm exCoeffs fun _ => none) 60 (1 / 2) true
      ((Submodule.pi Set.univ fun _ => linears).prod linears) (u n) (u (n + 1))) (n : ℕ) :
    waveEnergy 10 10 (u n) ≤ waveEnergy 10 10 (u 0) :=
  C127_waves_run (fun _ => exCoeffs) (fun _ => 60) (fun _ => 1 / 2) u (fun _ => exBasin) h0 (fun _ => by norm_num)
    (fun _ => le_refl _) h n

theorem linears_ext (f : Sc square) (hf : f ∈ linears) (h : ∀ c, (f (.cell c)).v = 0) : f = 0 := by
  obtain ⟨p, q, ⟨p1, p2, p3⟩, ⟨q1, q2, q3⟩, rfl⟩ := hf
  have a0 := h SqC.l0
  have a1 := h SqC.l1
  have a2 := h SqC.l2
  have b0 := h SqC.u0
  have b1 := h SqC.u1
  have b2 := h SqC.u2
  simp only [squareField, Quad.jet, p1, p2, p3, q1, q2, q3] at a0 a1 a2 b0 b1 b2
  have hp : p = ⟨0, 0, 0, 0, 0, 0⟩ := by
    cases p; simp only [Quad.mk.injEq] at *; exact ⟨by linarith, by linarith, by linarith, p1, p2, p3⟩
  have hq : q = ⟨0, 0, 0, 0, 0, 0⟩ := by
    cases q; simp only [Quad.mk.injEq] at *; exact ⟨by linarith, by linarith, by linarith, q1, q2, q3⟩
  rw [hp, hq]
  exact (squareField_cst 0).symm

theorem linears_pair (x : State square) (hx : x ∈ (Submodule.pi Set.univ fun _ => linears).prod linears)
    (h : ∀ c, (∀ i, (x.1 i (.cell c)).v = 0) ∧ (x.2 (.cell c)).v = 0) : x = 0 :=
  Prod.ext (funext fun i => linears_ext _ (hx.1 i trivial) fun c => (h c).1 i) (linears_ext _ hx.2 fun c => (h c).2)

instance : FiniteDimensional ℝ ((Submodule.pi Set.univ fun _ : Fin 2 => linears).prod linears) := by
  let f : (Submodule.pi Set.univ fun _ : Fin 2 => linears).prod linears →ₗ[ℝ] (SqC → Fin 2 → ℝ) × (SqC → ℝ) :=
    { toFun := fun x => (fun c i => (x.1.1 i (.cell c)).v, fun c => (x.1.2 (.cell c)).v)
      map_add' := fun _ _ => rfl
      map_smul' := fun _ _ => rfl }
  refine FiniteDimensional.of_injective f ?_
  rw [← LinearMap.ker_eq_bot, LinearMap.ker_eq_bot']
  intro x hx
  refine Subtype.ext (linears_pair x x.2 fun c => ⟨fun i => ?_, ?_⟩)
  · exact congrFun (congrFun (congrArg Prod.fst hx) c) i
  · exact congrFun (congrArg Prod.snd hx) c

/-- From every state there is exactly one such step. -/
example (old : State square) : ∃! new, ThetaStep (swe Swe.exTerm exCoeffs fun _ => none)
    (swe Swe.exTerm exCoeffs fun _ => none) 60 (1 / 2) true ((Submodule.pi Set.univ fun _ => linears).prod linears) old new :=
  C127_waves_unique exBasin 60 (1 / 2) true old (Or.inl rfl) linears_pair
    (fun c => show (0 : ℝ) < 1 / 6 by norm_num) (by norm_num) (by norm_num)

/-- The conditions of `Carried` hold on the square for diffusion of linear functions between triangles of different
diffusivity, with the standard penalty. -/
theorem exCarried : Carried Tracer2.exTerm { Tracer2.exFlow with uv := some fun _ => cst square 0 }
    (some (squareField ⟨1, 0, 0, 0, 0, 0⟩ ⟨5, 0, 0, 0, 0, 0⟩)) (fun _ => none) linears where
  dg := rfl
  flat := square_flat
  unit := square_unit
  flow u hu := by
    cases hu
    have h0 : ∀ f : Sc square, f * cst square 0 = cst square 0 := fun f => by
      funext x; apply Jet.ext
      · simp
      · funext i; simp
    have h1 : ∀ f : Sc square, cst square 0 * f = cst square 0 := fun f => by
      funext x; apply Jet.ext
      · simp
      · funext i; simp
    refine ⟨fun s => ?_, fun x => ?_, fun b => ?_, fun c _ => ?_⟩
    · simp [jumpV]
    · simp [Dg.div]
    · simp [Tracer2.qB, Tracer2.vel]
    · simp only [h0, h1]
      exact square_divExact_cst fun _ => 0
  lf := by norm_num [Tracer2.exFlow]
  bc _ _ h := by cases h
  diff mu h := by
    cases h
    refine ⟨3, 1, by norm_num, by norm_num [Tracer2.dofs, Tracer2.exTerm], fun s => by simp [Tracer2.exTerm], fun s => ?_,
      fun x => ?_, fun s => ?_, fun c hc => ?_⟩
    · exact ⟨show (0 : ℝ) < 1 / 2 by norm_num, show (0 : ℝ) < 1 / 2 by norm_num, Tracer2.sqCells.area_pos s⟩
    · cases x <;> simp [squareField, Quad.jet]
    · cases s <;> simp [squareField, Quad.jet]
    · obtain ⟨p, q, hp, hq, rfl⟩ := hc
      exact Tracer2.C75_trace_linear Tracer2.sqCells _ _ (Tracer2.sqLinear 1 5 (by norm_num) (by norm_num) p q hp hq) square_unit

/-- The functions in the tank that are linear in both layers. -/
noncomputable def layers : Submodule ℝ (Sc Ext.tank.m) where
  carrier := {f | ∃ p q : Ext.Lin, f = Ext.tankField p q}
  zero_mem' := ⟨⟨0, 0, 0, 0⟩, ⟨0, 0, 0, 0⟩, by
    have key : ∀ x y z : ℝ, (0 : Jet 3) = (⟨0, 0, 0, 0⟩ : Ext.Lin).jet x y z := fun x y z => by
      apply Jet.ext
      · simp [Ext.Lin.jet]
      · funext i; fin_cases i <;> simp [Ext.Lin.jet]
    funext x
    cases x with
    | cell c => cases c <;> exact key _ _ _
    | plus c => cases c; exact key _ _ _
    | minus c => cases c; exact key _ _ _
    | bnd c => cases c <;> exact key _ _ _⟩
  add_mem' := by
    rintro _ _ ⟨p, q, rfl⟩ ⟨r, s, rfl⟩
    refine ⟨⟨p.a + r.a, p.b + r.b, p.c + r.c, p.d + r.d⟩, ⟨q.a + s.a, q.b + s.b, q.c + s.c, q.d + s.d⟩, ?_⟩
    have key : ∀ (p r : Ext.Lin) (x y z : ℝ), p.jet x y z + r.jet x y z =
        (⟨p.a + r.a, p.b + r.b, p.c + r.c, p.d + r.d⟩ : Ext.Lin).jet x y z := fun p r x y z => by
      apply Jet.ext
      · simp [Ext.Lin.jet]; ring
      · funext i; fin_cases i <;> simp [Ext.Lin.jet]
    funext x
    cases x with
    | cell c => cases c <;> exact key _ _ _ _ _
    | plus c => cases c; exact key _ _ _ _ _
    | minus c => cases c; exact key _ _ _ _ _
    | bnd c => cases c <;> exact key _ _ _ _ _
  smul_mem' := by
    rintro a _ ⟨p, q, rfl⟩
    refine ⟨⟨a * p.a, a * p.b, a * p.c, a * p.d⟩, ⟨a * q.a, a * q.b, a * q.c, a * q.d⟩, ?_⟩
    have key : ∀ (p : Ext.Lin) (x y z : ℝ), a • p.jet x y z = (⟨a * p.a, a * p.b, a * p.c, a * p.d⟩ : Ext.Lin).jet x y z :=
      fun p x y z => by
        apply Jet.ext
        · show a * (p.jet x y z).v = _
          simp [Ext.Lin.jet]; ring
        · funext i
          show a * (p.jet x y z).g i = _
          fin_cases i <;> simp [Ext.Lin.jet]
    funext x
    cases x with
    | cell c => cases c <;> exact key _ _ _ _
    | plus c => cases c; exact key _ _ _ _
    | minus c => cases c; exact key _ _ _ _
    | bnd c => cases c <;> exact key _ _ _ _

/-- The hypotheses of `C127_vertical` hold in the tank with the time step 600. -/
example (old new : Sc Ext.tank.m) (ho : old ∈ layers)
    (h : TendencyStep (fun _ => tracer3 Tracer3.exTerm
      { Tracer3.exFields with uv := none, w := none, diffH := none } fun _ => none) RK.backwardEuler 600 false layers old new) :
    (Ext.tank.m.dx fun x => (new (.cell x)).v ^ 2) ≤ Ext.tank.m.dx fun x => (old (.cell x)).v ^ 2 := by
  refine C127_vertical Tracer3.exTerm _ _ (cst Ext.tank.m 1) layers 5 5 600 false old new ⟨rfl, rfl, rfl, rfl⟩ rfl Ext.tank_flat
    (fun s => ?_) (fun x => by simp) (fun s => by simp) (by norm_num) (fun c hc => ?_) (fun s => by simp [Tracer3.exTerm])
    (by simp [Tracer3.exTerm]; norm_num) ho (by norm_num) h
  · change (0 : ℝ) < 3 / 2 ∧ (0 : ℝ) < 1 ∧ (0 : ℝ) < 1
    norm_num
  · obtain ⟨p, q, rfl⟩ := hc
    unfold Tracer3.TraceBoundV
    refine (Ext.tank_dSh _).le.trans (le_trans ?_ (mul_le_mul_of_nonneg_left (Ext.tank_dx _).ge (by norm_num)))
    change (3 / 2 : ℝ) / 1 * 1 * ((p.d * 1) ^ 2 / 1 ^ 2) + 1 / 1 * 1 * ((q.d * 1) ^ 2 / 1 ^ 2) ≤
      5 * (3 / 2 * (1 * p.d ^ 2) + 1 * q.d ^ 2)
    nlinarith [sq_nonneg p.d, sq_nonneg q.d]

end Verif.Contract
