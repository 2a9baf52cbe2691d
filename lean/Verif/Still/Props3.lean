import Verif.Still.Model
import Verif.Ale.Model
import Verif.WetDry.Props
import Mathlib.Algebra.Module.LinearMap.Basic
import Mathlib.Algebra.BigOperators.Fin

/-!
C136: the volume of the 3D mesh and of the 2D mode over coupled runs.
-/

set_option linter.unusedSectionVars false

namespace Verif.Still

open Finset RK Verif.Dg Verif.Swe

variable {E2 U2 U W H A σ X D2 D DX : Type} [AddCommGroup D2] [Module ℝ D2]
  [AddCommGroup E2] [Module ℝ E2] [AddCommGroup U2] [Module ℝ U2] [AddCommGroup U] [Module ℝ U] [AddCommGroup W]
  [AddCommGroup D] [Module ℝ D] [AddCommGroup X] [Module ℝ X] [AddCommGroup DX] [Module ℝ DX]

/-! ### One stage of the 2D mode -/

/-- The volume that the 2D mode gains per time in a stage: the residual at the value of the stage, tested with the constant one. -/
noncomputable def gain (P : Env E2 U2 U W H A σ X D2 D DX) (one : D2 →ₗ[ℝ] ℝ) (B : Tableau) (semi : Bool) (n i : ℕ) (split : U2)
    (s : Dirk (E2 × U2)) : ℝ :=
  let t := P.stage2 B semi n i split s
  one (P.res2 n i split t.sol (if semi then t.old else s.sol))

/-- The solver of the stage has found a tendency for which the residual of the stage, tested with the constant one, vanishes. -/
def Solved (P : Env E2 U2 U W H A σ X D2 D DX) (one : D2 →ₗ[ℝ] ℝ) (B : Tableau) (semi : Bool) (n i : ℕ) (split : U2)
    (s : Dirk (E2 × U2)) : Prop :=
  one (-P.mass2 ((P.stage2 B semi n i split s).k i)) + gain P one B semi n i split s = 0

/-- A solver that returns a zero of the residual of the stage solves it in this sense. -/
theorem solved_of_root (P : Env E2 U2 U W H A σ X D2 D DX) (one : D2 →ₗ[ℝ] ℝ) (B : Tableau) (semi : Bool) (n i : ℕ) (split : U2)
    (s : Dirk (E2 × U2)) (h : ∀ (F : E2 × U2 → D2) k, (∃ x, F x = 0) → F (P.solve2 F k) = 0)
    (hx : ∀ x (c : ℝ) nl, ∃ k, -P.mass2 k + P.res2 n i split (x + c • k) nl = 0) : Solved P one B semi n i split s := by
  unfold Solved gain
  have key := h (fun k => -P.mass2 k + P.res2 n i split ((if i = 0 then s.sol else s.old) + ∑ j ∈ range i, (B.a i j * P.dt) • s.k j +
    (B.a i i * P.dt) • k) (if semi then (if i = 0 then s.sol else s.old) else s.sol)) (s.k i) (by
      obtain ⟨k, hk⟩ := hx ((if i = 0 then s.sol else s.old) + ∑ j ∈ range i, (B.a i j * P.dt) • s.k j) (B.a i i * P.dt)
        (if semi then (if i = 0 then s.sol else s.old) else s.sol)
      exact ⟨k, hk⟩)
  rw [← map_add]
  convert congrArg one key using 2
  · simp only [Env.stage2, Function.update_self]
    congr 2
    rw [sum_range_succ, Function.update_self, ← add_assoc, mul_comm P.dt (B.a i i)]
    congr 2
    refine sum_congr rfl fun j hj => ?_
    rw [Function.update_of_ne (by have := mem_range.1 hj; omega), mul_comm]
  · simp

variable (P : Env E2 U2 U W H A σ X D2 D DX) (one : D2 →ₗ[ℝ] ℝ) (tot : E2 →ₗ[ℝ] ℝ)

/-- The tendency carries the gain of its stage. -/
theorem tot_k (hm : ∀ k, one (P.mass2 k) = tot k.1) {B : Tableau} {semi : Bool} {n i : ℕ} {split : U2} {s : Dirk (E2 × U2)}
    (h : Solved P one B semi n i split s) : tot ((P.stage2 B semi n i split s).k i).1 = gain P one B semi n i split s := by
  unfold Solved at h
  rw [map_neg, hm] at h
  linarith

/-- Two stages of the 2D mode of `CoupledTwoStageRK` change the volume by the mean of the gains at the two times. -/
theorem two_stages (hm : ∀ k, one (P.mass2 k) = tot k.1) (semi : Bool) (n : ℕ) (sp0 sp1 : U2) (s : Dirk (E2 × U2))
    (h0 : Solved P one esdirkTrapezoid semi n 0 sp0 s)
    (h1 : Solved P one esdirkTrapezoid semi n 1 sp1 (P.stage2 esdirkTrapezoid semi n 0 sp0 s)) :
    tot (P.stage2 esdirkTrapezoid semi n 1 sp1 (P.stage2 esdirkTrapezoid semi n 0 sp0 s)).sol.1 = tot s.sol.1 + P.dt *
      ((gain P one esdirkTrapezoid semi n 0 sp0 s +
        gain P one esdirkTrapezoid semi n 1 sp1 (P.stage2 esdirkTrapezoid semi n 0 sp0 s)) / 2) := by
  rw [← tot_k P one tot hm h0, ← tot_k P one tot hm h1]
  set t := P.stage2 esdirkTrapezoid semi n 0 sp0 s with ht
  have hold : t.old = s.sol := by simp [ht, Env.stage2]
  have hsol : (P.stage2 esdirkTrapezoid semi n 1 sp1 t).sol =
      s.sol + ((P.dt * (1 / 2)) • t.k 0 + (P.dt * (1 / 2)) • (P.stage2 esdirkTrapezoid semi n 1 sp1 t).k 1) := by
    rw [← hold]
    simp [Env.stage2, esdirkTrapezoid, RK.mk, sum_range_succ]
  rw [hsol]
  simp only [Prod.fst_add, Prod.smul_fst, map_add, map_smul, smul_eq_mul]
  ring

/-- A step of the 2D mode of `CoupledLeapFrogAM3`. -/
theorem dirk_step (hm : ∀ k, one (P.mass2 k) = tot k.1) (semi : Bool) (n : ℕ) (sp : U2) (s : Dirk (E2 × U2))
    (h0 : Solved P one dirk22 semi n 0 sp s) (h1 : Solved P one dirk22 semi n 1 sp (P.stage2 dirk22 semi n 0 sp s)) :
    tot (P.advance2 dirk22 semi n sp s).sol.1 = tot s.sol.1 + P.dt *
      ((1 - γ22) * gain P one dirk22 semi n 0 sp s + γ22 * gain P one dirk22 semi n 1 sp (P.stage2 dirk22 semi n 0 sp s)) := by
  rw [← tot_k P one tot hm h0, ← tot_k P one tot hm h1]
  set t := P.stage2 dirk22 semi n 0 sp s with ht
  have hold : t.old = s.sol := by simp [ht, Env.stage2]
  have hk : (P.stage2 dirk22 semi n 1 sp t).k 0 = t.k 0 := by simp [Env.stage2]
  have ho : (P.stage2 dirk22 semi n 1 sp t).old = t.old := by simp [Env.stage2]
  have hsol : (P.advance2 dirk22 semi n sp s).sol =
      s.sol + ((P.dt * (1 - γ22)) • t.k 0 + (P.dt * γ22) • (P.stage2 dirk22 semi n 1 sp t).k 1) := by
    have : P.advance2 dirk22 semi n sp s = (P.stage2 dirk22 semi n 1 sp t).getFinal dirk22 P.dt := rfl
    rw [this]
    simp only [Dirk.getFinal, ho, hold]
    have hn : dirk22.n = 2 := rfl
    have b0 : dirk22.b 0 = 1 - γ22 := rfl
    have b1 : dirk22.b 1 = γ22 := rfl
    rw [hn, sum_range_succ, sum_range_one, b0, b1, hk]
  rw [hsol]
  simp only [Prod.fst_add, Prod.smul_fst, map_add, map_smul, smul_eq_mul]
  ring

/-! ### Where the coupled integrators change the 2D mode and the mesh -/

variable {P}

theorem stage_two (semi : Bool) (turb : ℕ → StA E2 U2 U W H A σ X D DX → A) (n i : ℕ) (s : StA E2 U2 U W H A σ X D DX) :
    (stage P semi turb n i s).two = P.stage2 esdirkTrapezoid semi n i s.split s.two ∧
    (stage P semi turb n i s).geo = if P.ale then P.cg (P.stage2 esdirkTrapezoid semi n i s.split s.two).sol.1 else s.geo := by
  cases ha : P.ale <;> cases hi : P.implicit <;> by_cases h1 : i = 1 <;> by_cases h0 : i = 0 <;>
    simp [stage, Env.store, Env.meshVelocity, prepare, Env.moveMesh, solveStage, Env.couple, Env.momentumImpl, Env.tracersImpl,
      Env.baroc, Env.vertical, other, ha, hi, h1, h0]

theorem leap_two (semi : Bool) (turb stab : ℕ → StL E2 U2 U W H A σ X D DX → A) (n : ℕ) (s : StL E2 U2 U W H A σ X D DX) :
    (leapAdvance P semi turb stab n s).two =
      P.advance2 dirk22 semi n (P.couple Leap.sol setLeap (predict P n (P.still s))).split s.two ∧
    (leapAdvance P semi turb stab n s).geo = if P.ale then P.cg (leapAdvance P semi turb stab n s).two.sol.1 else s.geo := by
  cases ha : P.ale <;> cases hi : P.implicit <;>
    simp [leapAdvance, leapMode2d, halfCouple, evalRhs, correct, predict, Env.still, Env.moveMesh, Env.couple, Env.momentumImpl,
      Env.tracersImpl, Env.baroc, Env.vertical, other, ha, hi]

theorem start_two {M T : Type} (f : St E2 U2 U W H A σ M T → A) (uv : M → U) (sol : T → X) (s : St E2 U2 U W H A σ M T) :
    (start P f uv sol s).two = s.two ∧ (P.ale = true → (start P f uv sol s).geo = P.cg s.two.sol.1) := by
  refine ⟨rfl, fun ha => ?_⟩
  simp [start, other, Env.baroc, Env.vertical, Env.moveMesh, ha]

/-! ### Runs -/

variable (P)

/-- The gain of volume per time in a step of `CoupledTwoStageRK` from the state `r`. -/
noncomputable def stepGain (semi : Bool) (turb : ℕ → StA E2 U2 U W H A σ X D DX → A) (n : ℕ) (r : StA E2 U2 U W H A σ X D DX) : ℝ :=
  (gain P one esdirkTrapezoid semi n 0 r.split r.two +
    gain P one esdirkTrapezoid semi n 1 (stage P semi turb n 0 r).split (stage P semi turb n 0 r).two) / 2

/-- Both stages of the step from `r` are solved. -/
def StepSolved (semi : Bool) (turb : ℕ → StA E2 U2 U W H A σ X D DX → A) (n : ℕ) (r : StA E2 U2 U W H A σ X D DX) : Prop :=
  Solved P one esdirkTrapezoid semi n 0 r.split r.two ∧
    Solved P one esdirkTrapezoid semi n 1 (stage P semi turb n 0 r).split (stage P semi turb n 0 r).two

/-- C136: over any number of steps of `CoupledTwoStageRK` the integral of the elevation changes by what the forms of the 2D mode let in, at
both ends of each step with equal weights, whatever the other equations do; the mesh follows the elevation. -/
theorem C136_two_stage (hm : ∀ k, one (P.mass2 k) = tot k.1) (semi : Bool) (turb : ℕ → StA E2 U2 U W H A σ X D DX → A)
    (init : StA E2 U2 U W H A σ X D DX → A) (s : StA E2 U2 U W H A σ X D DX)
    (h : ∀ n, StepSolved P one semi turb n (run P semi turb init s n)) (n : ℕ) :
    tot (run P semi turb init s n).two.sol.1 =
      tot s.two.sol.1 + P.dt * ∑ k ∈ range n, stepGain P one semi turb k (run P semi turb init s k) ∧
    (P.ale = true → (run P semi turb init s n).geo = P.cg (run P semi turb init s n).two.sol.1) := by
  induction n with
  | zero =>
    refine ⟨by simp [run, (start_two init Ale.sol Ale.sol s).1], fun ha => ?_⟩
    rw [run, (start_two init Ale.sol Ale.sol s).2 ha, (start_two init Ale.sol Ale.sol s).1]
  | succ n ih =>
    have hs := h n
    set r := run P semi turb init s n with hr
    have hn : run P semi turb init s (n + 1) = stage P semi turb n 1 (stage P semi turb n 0 r) := rfl
    obtain ⟨a0, -⟩ := stage_two (P := P) semi turb n 0 r
    obtain ⟨a1, g1⟩ := stage_two (P := P) semi turb n 1 (stage P semi turb n 0 r)
    refine ⟨?_, fun ha => ?_⟩
    · rw [hn, a1, sum_range_succ, mul_add, ← add_assoc, ← ih.1]
      have hs1 := hs.2
      unfold stepGain
      rw [a0] at hs1 ⊢
      exact two_stages P one tot hm semi n _ _ _ hs.1 hs1
    · rw [hn, g1, if_pos ha, a1]

/-- `split_residual_2d` when `CoupledLeapFrogAM3` advances the 2D mode. -/
noncomputable def leapSplit (n : ℕ) (r : StL E2 U2 U W H A σ X D DX) : U2 := (P.couple Leap.sol setLeap (predict P n (P.still r))).split

/-- The gain of volume per time in a step of `CoupledLeapFrogAM3` from the state `r`. -/
noncomputable def leapGain (semi : Bool) (n : ℕ) (r : StL E2 U2 U W H A σ X D DX) : ℝ :=
  (1 - γ22) * gain P one dirk22 semi n 0 (leapSplit P n r) r.two +
    γ22 * gain P one dirk22 semi n 1 (leapSplit P n r) (P.stage2 dirk22 semi n 0 (leapSplit P n r) r.two)

/-- Both stages of the step from `r` are solved. -/
def LeapSolved (semi : Bool) (n : ℕ) (r : StL E2 U2 U W H A σ X D DX) : Prop :=
  Solved P one dirk22 semi n 0 (leapSplit P n r) r.two ∧
    Solved P one dirk22 semi n 1 (leapSplit P n r) (P.stage2 dirk22 semi n 0 (leapSplit P n r) r.two)

/-- C136: the same for `CoupledLeapFrogAM3`. -/
theorem C136_leap_frog (hm : ∀ k, one (P.mass2 k) = tot k.1) (semi : Bool) (turb stab : ℕ → StL E2 U2 U W H A σ X D DX → A)
    (init : StL E2 U2 U W H A σ X D DX → A) (s : StL E2 U2 U W H A σ X D DX)
    (h : ∀ n, LeapSolved P one semi n (leapRun P semi turb stab init s n)) (n : ℕ) :
    tot (leapRun P semi turb stab init s n).two.sol.1 =
      tot s.two.sol.1 + P.dt * ∑ k ∈ range n, leapGain P one semi k (leapRun P semi turb stab init s k) ∧
    (P.ale = true → (leapRun P semi turb stab init s n).geo = P.cg (leapRun P semi turb stab init s n).two.sol.1) := by
  induction n with
  | zero =>
    refine ⟨by simp [leapRun, leapStart, start, other, Env.baroc, Env.vertical, Env.moveMesh], fun ha => ?_⟩
    simp [leapRun, leapStart, start, other, Env.baroc, Env.vertical, Env.moveMesh, ha]
  | succ n ih =>
    have hs := h n
    set r := leapRun P semi turb stab init s n with hr
    have hn : leapRun P semi turb stab init s (n + 1) = leapAdvance P semi turb stab n r := rfl
    obtain ⟨a0, g0⟩ := leap_two (P := P) semi turb stab n r
    refine ⟨?_, fun ha => ?_⟩
    · rw [hn, a0, sum_range_succ, mul_add, ← add_assoc, ← ih.1]
      exact dirk_step P one tot hm semi n _ _ hs.1 hs.2
    · rw [hn, g0, if_pos ha]

/-- C136: without `use_ale_moving_mesh` the mesh, and so its volume, never changes, whatever flows into the 2D mode. -/
theorem C136_fixed_mesh (ha : P.ale = false) (semi : Bool) (turb : ℕ → StA E2 U2 U W H A σ X D DX → A)
    (init : StA E2 U2 U W H A σ X D DX → A) (s : StA E2 U2 U W H A σ X D DX)
    (turb' stab : ℕ → StL E2 U2 U W H A σ X D DX → A) (init' : StL E2 U2 U W H A σ X D DX → A) (t : StL E2 U2 U W H A σ X D DX)
    (n : ℕ) : (run P semi turb init s n).geo = s.geo ∧ (leapRun P semi turb' stab init' t n).geo = t.geo := by
  induction n with
  | zero =>
    constructor <;> simp [run, leapRun, leapStart, start, other, Env.baroc, Env.vertical, Env.moveMesh, ha]
  | succ n ih =>
    refine ⟨?_, ?_⟩
    · rw [run, advance, (stage_two semi turb n 1 _).2, (stage_two semi turb n 0 _).2]
      simpa [ha] using ih.1
    · rw [leapRun, (leap_two semi turb' stab n _).2]
      simpa [ha] using ih.2

/-! ### The mesh -/

/-- The extruded mesh over the 2D mesh `m`: `phi x h` is the basis function of the node `h` at the quadrature point `x`, `z l h` the
vertical coordinate at rest of the lower end of layer `l` over the node `h`, with `layers` layers from the bed to the surface. -/
structure Columns (m : Mesh 2) (H : Type) [Fintype H] where
  phi : m.C → H → ℝ
  bath : H → ℝ
  layers : ℕ
  z : ℕ → H → ℝ
  unity : ∀ x, ∑ h, phi x h = 1
  deep : ∀ h, 0 < bath h
  bottom : ∀ h, z 0 h = -bath h
  top : ∀ h, z layers h = 0

variable [Fintype H] {m : Mesh 2}

/-- `comp_volume_3d`, utility.py:428-432: the integral of one over the mesh whose nodes `kernel_z_coord` has moved to the elevation `eta`.
In a cell the vertical coordinate is linear along the vertical, so that the integral over the vertical is the length of the cell. -/
noncomputable def Columns.volume3 (c : Columns m H) (eta : H → ℝ) : ℝ :=
  m.dx fun x => ∑ l ∈ range c.layers, ∑ h, c.phi x h *
    (Ale.newZ (c.bath h) (eta h) (c.z (l + 1) h) - Ale.newZ (c.bath h) (eta h) (c.z l h))

/-- `comp_volume_2d`, utility.py:420-425: the integral of elevation and bathymetry. -/
noncomputable def Columns.volume2 (c : Columns m H) (eta : Sc m) : ℝ :=
  m.dx fun x => (eta (.cell x)).v + ∑ h, c.phi x h * c.bath h

/-- The function with values `g` at the nodes is the `L²` projection of `eta`, utility3d.py:733-736. -/
def Columns.Projected (c : Columns m H) (eta : Sc m) (g : H → ℝ) : Prop :=
  ∀ h, m.dx (fun x => (∑ k, c.phi x k * g k) * c.phi x h) = m.dx fun x => (eta (.cell x)).v * c.phi x h

/-- C136: the 3D mesh for the projected elevation holds exactly the volume of the 2D mode, for any number and distribution of layers. -/
theorem C136_mesh (c : Columns m H) (eta : Sc m) (g : H → ℝ) (h : c.Projected eta g) : c.volume3 g = c.volume2 eta := by
  have hz : ∀ k, Ale.newZ (c.bath k) (g k) 0 = g k ∧ Ale.newZ (c.bath k) (g k) (-c.bath k) = -c.bath k := fun k => by
    have := (c.deep k).ne'
    constructor <;> (unfold Ale.newZ; field_simp; try ring)
  have h1 : c.volume3 g = m.dx fun x => (∑ k, c.phi x k * g k) + ∑ k, c.phi x k * c.bath k := by
    refine dx_congr fun x => ?_
    rw [sum_comm, ← sum_add_distrib]
    refine sum_congr rfl fun k _ => ?_
    rw [← mul_sum, sum_range_sub (fun l => Ale.newZ (c.bath k) (g k) (c.z l k)), c.bottom, c.top, (hz k).1, (hz k).2]
    ring
  have h2 : m.dx (fun x => ∑ k, c.phi x k * g k) = m.dx fun x => (eta (.cell x)).v := by
    have e : ∀ f : m.C → ℝ, m.dx f = ∑ k, m.dx fun x => f x * c.phi x k := fun f => by
      unfold Mesh.dx
      rw [sum_comm]
      refine sum_congr rfl fun x _ => ?_
      rw [← mul_sum, ← mul_sum, c.unity x, mul_one]
    rw [e, e (fun x => (eta (.cell x)).v)]
    exact sum_congr rfl fun k _ => h k
  rw [h1, dx_add, h2, ← dx_add]
  rfl

/-! ### Closed basins -/

/-- The 2D mode in weak form: tested with `(w, phi)` its forms are those of the shallow water equations.  `ev`, `vv` give the functions
with the coefficients of elevation and velocity. -/
structure Mode2 (P : Env E2 U2 U W H A σ X ((Vc m → ℝ) × (Sc m → ℝ)) D DX) (c : Columns m H) (ev : E2 → Sc m) (vv : U2 → Vc m) where
  term : Swe.Term m
  coeffs : ℕ → ℕ → U2 → Coeffs m
  bc : ℕ → ℕ → ℕ → Option (Funcs m)
  flat : m.Flat
  dg : term.uDg = true
  linear : ∀ x, ∃ f : E2 →ₗ[ℝ] ℝ, ∀ e, (ev e (.cell x)).v = f e
  mass : ∀ k phi, (P.mass2 k).2 phi = m.dx fun x => (ev k.1 (.cell x)).v * (phi (.cell x)).v
  res : ∀ n i sp u nl phi, (P.res2 n i sp u nl).2 phi =
    continuity term (coeffs n i sp) (bc n i) (vv u.2) (ev u.1) (vv nl.2) (ev nl.1) phi
  projected : ∀ e, c.Projected (ev e) (P.cg e)

/-- The part of the forms tested with the constant elevation one. -/
def testOne : ((Vc m → ℝ) × (Sc m → ℝ)) →ₗ[ℝ] ℝ where
  toFun d := d.2 (cst m 1)
  map_add' _ _ := rfl
  map_smul' _ _ := rfl

/-- What flows into the domain in a state `u` with the linearisation at `nl`. -/
noncomputable def Mode2.inflow {P : Env E2 U2 U W H A σ X ((Vc m → ℝ) × (Sc m → ℝ)) D DX} {c : Columns m H} {ev : E2 → Sc m}
    {vv : U2 → Vc m} (F : Mode2 P c ev vv) (n i : ℕ) (sp : U2) (u nl : E2 × U2) : ℝ :=
  WetDry.inflow F.term (F.coeffs n i sp) (F.bc n i) (vv u.2, ev u.1) (vv nl.2, ev nl.1)

theorem gain_inflow {P : Env E2 U2 U W H A σ X ((Vc m → ℝ) × (Sc m → ℝ)) D DX} {c : Columns m H} {ev : E2 → Sc m} {vv : U2 → Vc m}
    (F : Mode2 P c ev vv) (B : Tableau) (semi : Bool) (n i : ℕ) (sp : U2) (s : Dirk (E2 × U2)) :
    gain P testOne B semi n i sp s =
      F.inflow n i sp (P.stage2 B semi n i sp s).sol (if semi then (P.stage2 B semi n i sp s).old else s.sol) := by
  simp only [gain, testOne, LinearMap.coe_mk, AddHom.coe_mk, F.res]
  exact C76_total _ _ _ _ _ _ _ F.dg F.flat

/-- The integral of the elevation. -/
theorem Mode2.exists_tot {P : Env E2 U2 U W H A σ X ((Vc m → ℝ) × (Sc m → ℝ)) D DX} {c : Columns m H} {ev : E2 → Sc m}
    {vv : U2 → Vc m} (F : Mode2 P c ev vv) : ∃ tot : E2 →ₗ[ℝ] ℝ, (∀ e, tot e = m.dx fun x => (ev e (.cell x)).v) ∧
      ∀ k, testOne (P.mass2 k) = tot k.1 := by
  choose f hf using F.linear
  refine ⟨∑ x, m.wC x • f x, fun e => ?_, fun k => ?_⟩
  · simp [Mesh.dx, hf]
  · simp [testOne, F.mass, Mesh.dx, hf]

/-- No water enters: the boundaries are closed and there is no volume source. -/
def Mode2.Tight {P : Env E2 U2 U W H A σ X ((Vc m → ℝ) × (Sc m → ℝ)) D DX} {c : Columns m H} {ev : E2 → Sc m}
    {vv : U2 → Vc m} (F : Mode2 P c ev vv) : Prop :=
  ∀ n i sp, (∀ k ∈ m.markers, IsClosed (F.bc n i k)) ∧ (F.coeffs n i sp).volume = none

theorem gain_tight {P : Env E2 U2 U W H A σ X ((Vc m → ℝ) × (Sc m → ℝ)) D DX} {c : Columns m H} {ev : E2 → Sc m} {vv : U2 → Vc m}
    (F : Mode2 P c ev vv) (hF : F.Tight) (B : Tableau) (semi : Bool) (n i : ℕ) (sp : U2) (s : Dirk (E2 × U2)) :
    gain P testOne B semi n i sp s = 0 := by
  simp only [gain, testOne, LinearMap.coe_mk, AddHom.coe_mk, F.res]
  exact C76_conserved _ _ _ _ _ _ _ F.dg F.flat (hF n i sp).1 (hF n i sp).2

/-- C136: in a closed basin the 3D mesh has, after any number of steps of `CoupledTwoStageRK`, exactly the volume that the 2D mode had at
the start, whatever the baroclinic flow, turbulence and the implicit solvers do; so `volume2d` and `volume3d` never drift. -/
theorem C136_closed {P : Env E2 U2 U W H A σ X ((Vc m → ℝ) × (Sc m → ℝ)) D DX} {c : Columns m H} {ev : E2 → Sc m} {vv : U2 → Vc m}
    (F : Mode2 P c ev vv) (hF : F.Tight) (ha : P.ale = true) (semi : Bool) (turb : ℕ → StA E2 U2 U W H A σ X D DX → A)
    (init : StA E2 U2 U W H A σ X D DX → A) (s : StA E2 U2 U W H A σ X D DX)
    (h : ∀ n, StepSolved P testOne semi turb n (run P semi turb init s n)) (n : ℕ) :
    c.volume2 (ev (run P semi turb init s n).two.sol.1) = c.volume2 (ev s.two.sol.1) ∧
    c.volume3 (run P semi turb init s n).geo = c.volume2 (ev s.two.sol.1) := by
  obtain ⟨tot, ht, hm⟩ := F.exists_tot
  obtain ⟨a, b⟩ := C136_two_stage P testOne tot hm semi turb init s h n
  have hg : ∀ k, stepGain P testOne semi turb k (run P semi turb init s k) = 0 := fun k => by
    simp [stepGain, gain_tight F hF]
  have e : c.volume2 (ev (run P semi turb init s n).two.sol.1) = c.volume2 (ev s.two.sol.1) := by
    unfold Columns.volume2
    rw [dx_add, dx_add, ← ht, ← ht, a]
    simp [hg]
  refine ⟨e, ?_⟩
  rw [b ha, C136_mesh c _ _ (F.projected _), e]

/-- C136: the same for `CoupledLeapFrogAM3`. -/
theorem C136_closed_leap {P : Env E2 U2 U W H A σ X ((Vc m → ℝ) × (Sc m → ℝ)) D DX} {c : Columns m H} {ev : E2 → Sc m}
    {vv : U2 → Vc m} (F : Mode2 P c ev vv) (hF : F.Tight) (ha : P.ale = true) (semi : Bool)
    (turb stab : ℕ → StL E2 U2 U W H A σ X D DX → A) (init : StL E2 U2 U W H A σ X D DX → A) (s : StL E2 U2 U W H A σ X D DX)
    (h : ∀ n, LeapSolved P testOne semi n (leapRun P semi turb stab init s n)) (n : ℕ) :
    c.volume2 (ev (leapRun P semi turb stab init s n).two.sol.1) = c.volume2 (ev s.two.sol.1) ∧
    c.volume3 (leapRun P semi turb stab init s n).geo = c.volume2 (ev s.two.sol.1) := by
  obtain ⟨tot, ht, hm⟩ := F.exists_tot
  obtain ⟨a, b⟩ := C136_leap_frog P testOne tot hm semi turb stab init s h n
  have hg : ∀ k, leapGain P testOne semi k (leapRun P semi turb stab init s k) = 0 := fun k => by
    simp [leapGain, gain_tight F hF]
  have e : c.volume2 (ev (leapRun P semi turb stab init s n).two.sol.1) = c.volume2 (ev s.two.sol.1) := by
    unfold Columns.volume2
    rw [dx_add, dx_add, ← ht, ← ht, a]
    simp [hg]
  refine ⟨e, ?_⟩
  rw [b ha, C136_mesh c _ _ (F.projected _), e]

/-- C136: in any basin, closed or not, the 3D mesh has the volume of the start and what has flowed in through the boundaries and from
sources at both ends of each step. -/
theorem C136_open {P : Env E2 U2 U W H A σ X ((Vc m → ℝ) × (Sc m → ℝ)) D DX} {c : Columns m H} {ev : E2 → Sc m} {vv : U2 → Vc m}
    (F : Mode2 P c ev vv) (ha : P.ale = true) (semi : Bool) (turb : ℕ → StA E2 U2 U W H A σ X D DX → A)
    (init : StA E2 U2 U W H A σ X D DX → A) (s : StA E2 U2 U W H A σ X D DX)
    (h : ∀ n, StepSolved P testOne semi turb n (run P semi turb init s n)) (n : ℕ) :
    c.volume3 (run P semi turb init s n).geo = c.volume2 (ev s.two.sol.1) + P.dt * ∑ k ∈ range n,
      (let r := run P semi turb init s k
       let t := stage P semi turb k 0 r
       let u := stage P semi turb k 1 t
       (F.inflow k 0 r.split t.two.sol (if semi then t.two.old else r.two.sol) +
        F.inflow k 1 t.split u.two.sol (if semi then u.two.old else t.two.sol)) / 2) := by
  obtain ⟨tot, ht, hm⟩ := F.exists_tot
  obtain ⟨a, b⟩ := C136_two_stage P testOne tot hm semi turb init s h n
  have e : c.volume2 (ev (run P semi turb init s n).two.sol.1) = c.volume2 (ev s.two.sol.1) +
      P.dt * ∑ k ∈ range n, stepGain P testOne semi turb k (run P semi turb init s k) := by
    unfold Columns.volume2
    rw [dx_add, dx_add, ← ht, ← ht, a]
    ring
  rw [b ha, C136_mesh c _ _ (F.projected _), e]
  congr 2
  refine sum_congr rfl fun k _ => ?_
  simp only [stepGain, gain_inflow F, (stage_two (P := P) semi turb k 1 _).1, (stage_two (P := P) semi turb k 0 _).1]

/-! ### Example: rain on a closed basin -/

/-- Two layers over the unit square, 10 deep. -/
noncomputable def exColumns : Columns square Unit where
  phi := fun _ _ => 1
  bath := fun _ => 10
  layers := 2
  z := fun l _ => -10 + 5 * l
  unity := fun _ => by simp
  deep := fun _ => by norm_num
  bottom := fun _ => by norm_num
  top := fun _ => by norm_num

/-- Uniform elevations in the unit square with the volume source `rain`, if any; the 3D velocity and one tracer decay. -/
noncomputable def exRain (rain : Option ℝ) : Env ℝ ℝ ℝ ℝ Unit Unit Unit ℝ ((Vc square → ℝ) × (Sc square → ℝ)) ℝ ℝ where
  dt := 60
  ale := true
  limitT := false
  limitU := false
  implicit := false
  baroclinic := false
  cg := fun z _ => z
  average := fun _ u => u
  copy := fun u => u
  wSolve := fun _ u => -u
  head := fun _ _ => 0
  mass2 := fun k => (fun _ => k.2, fun phi => square.dx fun x => (cst square k.1 (.cell x)).v * (phi (.cell x)).v)
  res2 := fun _ _ sp u nl => (fun _ => sp, fun phi => continuity Swe.exTerm { noCoeffs with volume := rain.map fun r => cst square r }
    (fun _ => none) (fun _ => cst square u.2) (cst square u.1) (fun _ => cst square nl.2) (cst square nl.1) phi)
  solve2 := fun F _ => ((F 0).2 (cst square 1), 0)
  massU := fun _ u => u
  invU := fun _ f => f
  resU := fun _ _ _ u => -u
  massX := fun _ u => u
  invX := fun _ f => f
  resX := fun _ _ _ _ u => -u
  limX := fun _ u => u
  limV := fun _ u => u
  implU := fun _ _ u => u
  implX := fun _ _ _ u => u

theorem square_area (z : ℝ) : (square.dx fun _ => z) = z := by
  change (∑ _c : SqC, 1 / 6 * z) = z
  rw [sum_const, card_univ, show Fintype.card SqC = 6 from rfl]
  simp

noncomputable def exMode (rain : Option ℝ) : Mode2 (exRain rain) exColumns (fun z => cst square z) (fun u _ => cst square u) where
  term := Swe.exTerm
  coeffs := fun _ _ _ => { noCoeffs with volume := rain.map fun r => cst square r }
  bc := fun _ _ _ => none
  flat := square_flat
  dg := rfl
  linear := fun x => ⟨LinearMap.id, fun e => rfl⟩
  mass := fun k phi => rfl
  res := fun n i sp u nl phi => rfl
  projected := fun e h => by simp [exColumns, exRain]

theorem exFlow (rain : Option ℝ) (u nl : ℝ × ℝ) :
    continuity Swe.exTerm { noCoeffs with volume := rain.map fun r => cst square r } (fun _ => none)
      (fun _ => cst square u.2) (cst square u.1) (fun _ => cst square nl.2) (cst square nl.1) (cst square 1) = rain.getD 0 := by
  rw [C76_total _ _ _ _ _ _ _ rfl square_flat]
  have : ∀ b, volFlux Swe.exTerm (fun _ => none) (fun _ => cst square u.2) (cst square u.1) (fun _ => cst square nl.2)
      (cst square nl.1) (square.marker b) b = 0 := fun b => C76_closed _ _ _ _ _ _ _ b (fun _ h => by simp at h)
  simp only [this, mul_zero, sum_const_zero, neg_zero, zero_add]
  cases rain with
  | none => rfl
  | some r => exact square_area r

theorem exSolved (rain : Option ℝ) (B : Tableau) (semi : Bool) (n i : ℕ) (sp : ℝ) (s : Dirk (ℝ × ℝ)) :
    Solved (exRain rain) testOne B semi n i sp s := by
  unfold Solved
  have hg : gain (exRain rain) testOne B semi n i sp s = rain.getD 0 := exFlow _ _ _
  rw [hg, map_neg]
  have : ((exRain rain).stage2 B semi n i sp s).k i = (rain.getD 0, 0) := by
    simp only [Env.stage2, Function.update_self]
    refine Prod.ext ?_ rfl
    change -(square.dx fun x => (cst square 0 (.cell x)).v * (cst square 1 (.cell x)).v) + continuity _ _ _ _ _ _ _ _ = _
    rw [exFlow]
    simp [dx_zero]
  rw [this]
  change -(square.dx fun x => (cst square (rain.getD 0) (.cell x)).v * (cst square 1 (.cell x)).v) + rain.getD 0 = 0
  simp [square_area]

theorem exVolume (z : ℝ) : exColumns.volume2 (cst square z) = z + 10 := by
  simp [Columns.volume2, exColumns, square_area]

/-- Rain of 1/100 per time fills the 3D mesh of the example by 3/5 in each step. -/
example (semi : Bool) (s : StA ℝ ℝ ℝ ℝ Unit Unit Unit ℝ ℝ ℝ) (n : ℕ) :
    exColumns.volume3 (run (exRain (some (1 / 100))) semi (fun _ _ => ()) (fun _ => ()) s n).geo = s.two.sol.1 + 10 + 3 / 5 * n := by
  have h := C136_open (exMode (some (1 / 100))) rfl semi (fun _ _ => ()) (fun _ => ()) s
    (fun _ => ⟨exSolved _ _ _ _ _ _ _, exSolved _ _ _ _ _ _ _⟩) n
  have hi : ∀ k i sp u nl, (exMode (some (1 / 100))).inflow k i sp u nl = 1 / 100 := fun k i sp u nl => by
    have e := exFlow (some (1 / 100)) u nl
    rw [C76_total _ _ _ _ _ _ _ rfl square_flat] at e
    exact e
  rw [h, exVolume]
  simp only [hi]
  simp [exRain]
  ring

/-- Without rain both integrators keep the volume of the mesh. -/
example (semi : Bool) (s : StA ℝ ℝ ℝ ℝ Unit Unit Unit ℝ ℝ ℝ) (t : StL ℝ ℝ ℝ ℝ Unit Unit Unit ℝ ℝ ℝ) (n : ℕ) :
    exColumns.volume3 (run (exRain none) semi (fun _ _ => ()) (fun _ => ()) s n).geo = s.two.sol.1 + 10 ∧
    exColumns.volume3 (leapRun (exRain none) semi (fun _ _ => ()) (fun _ _ => ()) (fun _ => ()) t n).geo = t.two.sol.1 + 10 := by
  have ht : (exMode none).Tight := fun _ _ _ => ⟨fun _ _ _ h => by simp [exMode] at h, rfl⟩
  exact ⟨(C136_closed (exMode none) ht rfl semi _ _ s (fun _ => ⟨exSolved _ _ _ _ _ _ _, exSolved _ _ _ _ _ _ _⟩) n).2.trans (exVolume _),
    (C136_closed_leap (exMode none) ht rfl semi _ _ _ t (fun _ => ⟨exSolved _ _ _ _ _ _ _, exSolved _ _ _ _ _ _ _⟩) n).2.trans
      (exVolume _)⟩

end Verif.Still
