import Mathlib.Algebra.BigOperators.Ring.Finset
import Mathlib.Tactic.Linarith
import Mathlib.Tactic.Ring
import Mathlib.Tactic.NormNum
import Mathlib.Tactic.LinearCombination
import Mathlib.Tactic.FieldSimp
import Verif.Split.Model

/-!
C96: the depth average of the 3D forces reaches the 2D mode once.
-/

namespace Verif.Split

variable {n : ℕ}

theorem mean_add (w u v : Fin n → ℚ) : mean w (fun i => u i + v i) = mean w u + mean w v := by
  unfold mean
  rw [← Finset.sum_add_distrib]
  exact Finset.sum_congr rfl fun i _ => by ring

theorem mean_smul (w u : Fin n → ℚ) (c : ℚ) : mean w (fun i => c * u i) = c * mean w u := by
  unfold mean
  rw [Finset.mul_sum]
  exact Finset.sum_congr rfl fun i _ => by ring

theorem mean_const (w : Fin n → ℚ) (hw : ∑ i, w i = 1) (c : ℚ) : mean w (fun _ => c) = c := by
  unfold mean
  rw [← Finset.sum_mul, hw, one_mul]

theorem mean_addc (w : Fin n → ℚ) (hw : ∑ i, w i = 1) (u : Fin n → ℚ) (c : ℚ) :
    mean w (fun i => u i + c) = mean w u + c := by
  rw [mean_add w u fun _ => c, mean_const w hw]

theorem mean_subc (w : Fin n → ℚ) (hw : ∑ i, w i = 1) (u : Fin n → ℚ) (c : ℚ) :
    mean w (fun i => u i - c) = mean w u - c := by
  simp only [sub_eq_add_neg]
  exact mean_addc w hw u (-c)

/-- After the coupling the deviation has no depth average. -/
theorem coupling_mean (w : Fin n → ℚ) (hw : ∑ i, w i = 1) (dt : ℚ) (s : St n) :
    mean w (coupling w dt s).uv3 = 0 := by
  simp only [coupling]
  rw [mean_subc w hw, sub_self]

theorem mean_one (w : Fin n → ℚ) (u f : Fin n → ℚ) (dt : ℚ) :
    mean w (fun i => u i + dt * f i) = mean w u + dt * mean w f := by
  rw [mean_add w u fun i => dt * f i, mean_smul]

theorem mean_two (w : Fin n → ℚ) (u v f : Fin n → ℚ) (a b c : ℚ) :
    mean w (fun i => a * u i + b * v i + c * f i) = a * mean w u + b * mean w v + c * mean w f := by
  rw [mean_add w (fun i => a * u i + b * v i) fun i => c * f i,
    mean_add w (fun i => a * u i) fun i => b * v i, mean_smul, mean_smul, mean_smul]

/-- Velocity seen by users: deviation plus depth averaged part (as exported). -/
def St.total (s : St n) : Fin n → ℚ := fun i => s.uv3 i + s.dav3

theorem total_mean (w : Fin n → ℚ) (hw : ∑ i, w i = 1) (s : St n) :
    mean w s.total = mean w s.uv3 + s.dav3 := mean_addc w hw s.uv3 s.dav3

/-- Momentum per depth held by the fields of the two-stage scheme: the velocity of the 2D mode, the part of
the coupling term that the next step still has to apply, and the depth average of the deviation. -/
def momentum (w : Fin n → ℚ) (dt : ℚ) (s : St n) : ℚ := s.uv2 + dt / 2 * s.split + mean w s.uv3

/-- The state in which the first evaluation of the 3D tendency is made. -/
def eval1 (s : St n) : St n := s

/-- The state in which the second evaluation of the 3D tendency is made: 2D mode advanced, 3D fields from
the first stage. -/
def eval2 (w : Fin n → ℚ) (dt : ℚ) (q : Eqs n) (s : St n) : St n :=
  { stageOne w dt q s with
    uv2 := s.uv2 + dt / 2 * (q.ext 0 s + s.split)
      + dt / 2 * (q.ext 1 (stageOne w dt q s) + (stageOne w dt q s).split) }

/-- In `CoupledTwoStageRK` one step changes the momentum by the impulse of the 2D forces (weights 1/2, 1/2),
the impulse of the depth average of the 3D forces (weights 3/4 and 1/4) and that of the implicit vertical
step, each exactly once: nothing is lost between the modes and nothing counted twice. -/
theorem C96_budget (w : Fin n → ℚ) (hw : ∑ i, w i = 1) (dt : ℚ) (hdt : 0 < dt) (q : Eqs n)
    (hl : ∀ u, mean w (q.lim u) = mean w u) (s : St n) :
    momentum w dt (advanceRK w dt false q s) = momentum w dt s
      + dt * (1 / 2 * q.ext 0 s + 1 / 2 * q.ext 1 (stageOne w dt q s))
      + dt * (3 / 4 * mean w (q.expl (eval1 s)) + 1 / 4 * mean w (q.expl (eval2 w dt q s))) := by
  have h0 : ({ s with uv2 := s.uv2 + dt * (0 * k0 q s) } : St n) = s := by
    cases s
    simp
  have hs1 : (stageOne w dt q s).split = (mean w s.uv3 + dt * mean w (q.expl s)) / dt := by
    simp only [stageOne, coupling]
    rw [hl, h0, mean_one]
  have he2 : ({ stageOne w dt q s with uv2 := s.uv2 + dt * (1 / 2 * k0 q s
      + 1 / 2 * (q.ext 1 (stageOne w dt q s) + (stageOne w dt q s).split)) } : St n) = eval2 w dt q s := by
    simp only [eval2, k0]
    congr 1
    ring
  have hm : mean w (coupling w dt { eval2 w dt q s with uv3 := q.lim (fun i =>
      1 / 2 * (s.uv3 i + dt * q.expl s i) + 1 / 2 * s.uv3 i + 1 / 2 * (dt * q.expl (eval2 w dt q s) i)) }).uv3
      = 0 := coupling_mean w hw dt _
  have hstep : advanceRK w dt false q s = coupling w dt { eval2 w dt q s with uv3 := q.lim (fun i =>
      1 / 2 * (s.uv3 i + dt * q.expl s i) + 1 / 2 * s.uv3 i
        + 1 / 2 * (dt * q.expl (eval2 w dt q s) i)) } := by
    simp only [advanceRK, stageTwo, h0, he2, Bool.false_eq_true, if_false]
    refine congrArg (coupling w dt) ?_
    simp only [eval2, k0]
    congr 1
    ring
  rw [hstep]
  unfold momentum
  rw [hm]
  simp only [coupling, eval1]
  rw [hl, mean_two w (fun i => s.uv3 i + dt * q.expl s i) s.uv3 (fun i => dt * q.expl (eval2 w dt q s) i),
    mean_one, mean_smul]
  have hu : (eval2 w dt q s).uv2 = s.uv2 + dt / 2 * (q.ext 0 s + s.split)
      + dt / 2 * (q.ext 1 (stageOne w dt q s) + (mean w s.uv3 + dt * mean w (q.expl s)) / dt) := by
    simp only [eval2, hs1]
  rw [hu]
  field_simp
  ring

/-- The implicit vertical step adds the change it makes to the depth average of the full velocity. -/
theorem C96_implicit (w : Fin n → ℚ) (hw : ∑ i, w i = 1) (dt : ℚ) (q : Eqs n) (s : St n) :
    momentum w dt (advanceRK w dt true q s) = momentum w dt (advanceRK w dt false q s)
      + (mean w (q.impl (advanceRK w dt false q s) (advanceRK w dt false q s).total)
        - mean w (advanceRK w dt false q s).total) := by
  simp only [advanceRK, Bool.false_eq_true, if_false, if_true]
  set s2 := stageTwo w dt q s (stageOne w dt q s)
  have ht : (fun j => s2.uv3 j + s2.dav3) = s2.total := rfl
  simp only [momentum, vertical]
  rw [mean_subc w hw, ht, total_mean w hw]
  ring

/-- Without the implicit step the depth average of the velocity seen by users is the velocity of the 2D
mode, in both integrators. -/
theorem C96_average (w : Fin n → ℚ) (hw : ∑ i, w i = 1) (dt : ℚ) (q : Eqs n) (s : St n) :
    mean w (advanceRK w dt false q s).total = (advanceRK w dt false q s).uv2 ∧
      mean w (advanceLF w dt false q s).total = (advanceLF w dt false q s).uv2 := by
  have key : ∀ s : St n, mean w (coupling w dt s).total = (coupling w dt s).uv2 := by
    intro s
    unfold St.total
    rw [mean_addc w hw, coupling_mean w hw, zero_add]
    rfl
  simp only [advanceRK, advanceLF, Bool.false_eq_true, if_false, stageTwo, correct]
  exact ⟨key _, key _⟩

/-- With the implicit step it differs by the impulse of that step (bottom friction, wind), in both
integrators: the velocity that moves tracers at the next step is not that of the 2D mode. -/
theorem C96_average_violated : ∃ (w : Fin 1 → ℚ) (q : Eqs 1) (s : St 1), (∑ i, w i = 1) ∧
    mean w (advanceRK w 1 true q s).total ≠ (advanceRK w 1 true q s).uv2 ∧
    mean w (advanceLF w 1 true q s).total ≠ (advanceLF w 1 true q s).uv2 := by
  refine ⟨fun _ => 1, ⟨fun _ _ => 0, fun _ _ => 0, id, fun _ u i => u i / 2⟩, ⟨0, 1, 1, 0, 0⟩, by simp, ?_, ?_⟩
  · norm_num [advanceRK, stageTwo, stageOne, coupling, vertical, mean, St.total, k0]
  · norm_num [advanceLF, predict, step2d, halfStep, correct, coupling, vertical, mean, St.total, gam]

/-! ### Steady forces -/

/-- Steady forces: `e` in the 2D equation, `f` per element in the 3D equation, no vertical process. -/
def steady (e : ℚ) (f : Fin n → ℚ) : Eqs n := ⟨fun _ => f, fun _ _ => e, id, fun _ => id⟩

/-- A column at rest. -/
def rest : St n := ⟨fun _ => 0, 0, 0, 0, fun _ => 0⟩

/-- `N` steps of the two-stage scheme. -/
def runRK (w : Fin n → ℚ) (dt : ℚ) (q : Eqs n) (N : ℕ) (s : St n) : St n :=
  (advanceRK w dt false q)^[N] s

/-- `N` steps of the leap-frog scheme. -/
def runLF (w : Fin n → ℚ) (dt : ℚ) (q : Eqs n) (N : ℕ) (s : St n) : St n :=
  (advanceLF w dt false q)^[N] s

/-- Impulse given to a column in a step: that of the 2D forces and that of the depth average of the 3D
forces, as means over the evaluations of the step with weights adding up to one. -/
def impulse (w : Fin n → ℚ) (dt : ℚ) (q : Eqs n) (s : St n) : ℚ :=
  dt * (1 / 2 * q.ext 0 s + 1 / 2 * q.ext 1 (stageOne w dt q s))
    + dt * (3 / 4 * mean w (q.expl (eval1 s)) + 1 / 4 * mean w (q.expl (eval2 w dt q s)))

/-- Over any number of steps the velocity of the 2D mode changes by the sum of the impulses, whatever the
forces, up to half a step of the coupling term of the first and the last state. -/
theorem C96_total (w : Fin n → ℚ) (hw : ∑ i, w i = 1) (dt : ℚ) (hdt : 0 < dt) (q : Eqs n)
    (hl : ∀ u, mean w (q.lim u) = mean w u) (s : St n) (hs : mean w s.uv3 = 0) (N : ℕ) :
    (runRK w dt q N s).uv2 = s.uv2 + ∑ j ∈ Finset.range N, impulse w dt q (runRK w dt q j s)
      - dt / 2 * ((runRK w dt q N s).split - s.split) := by
  have hm0 : ∀ s : St n, mean w (advanceRK w dt false q s).uv3 = 0 := fun s => by
    simp only [advanceRK, Bool.false_eq_true, if_false, stageTwo]
    exact coupling_mean w hw dt _
  have hmN : mean w (runRK w dt q N s).uv3 = 0 := by
    cases N with
    | zero => exact hs
    | succ N =>
      unfold runRK
      rw [Function.iterate_succ_apply']
      exact hm0 _
  have key : momentum w dt (runRK w dt q N s)
      = momentum w dt s + ∑ j ∈ Finset.range N, impulse w dt q (runRK w dt q j s) := by
    clear hmN
    induction N with
    | zero => simp [runRK]
    | succ N ih =>
      rw [Finset.sum_range_succ, ← add_assoc, ← ih]
      unfold runRK
      rw [Function.iterate_succ_apply', C96_budget w hw dt hdt q hl]
      unfold impulse
      ring
  unfold momentum at key
  rw [hmN, hs] at key
  linarith

/-- Under steady forces the two-stage scheme gives, after `N + 1` steps from rest, the exact velocity
`t (e + mean f)` less half the impulse of one step, which is still to be applied. -/
theorem C96_steady (w : Fin n → ℚ) (hw : ∑ i, w i = 1) (dt : ℚ) (hdt : 0 < dt) (e : ℚ) (f : Fin n → ℚ)
    (N : ℕ) : (runRK w dt (steady e f) (N + 1) rest).uv2
      = (N + 1) * dt * (e + mean w f) - dt / 2 * mean w f := by
  have hb := C96_budget w hw dt hdt (steady e f) (fun _ => rfl)
  have hsp : ∀ s : St n, mean w s.uv3 = 0 →
      (advanceRK w dt false (steady e f) s).split = mean w f := by
    intro s hs
    simp only [advanceRK, stageTwo, coupling, steady, id, Bool.false_eq_true, if_false]
    rw [mean_two w (fun i => s.uv3 i + dt * f i) s.uv3 (fun i => dt * f i), mean_one, mean_smul, hs]
    field_simp
    ring
  have hm0 : ∀ s : St n, mean w (advanceRK w dt false (steady e f) s).uv3 = 0 := fun s => by
    simp only [advanceRK, Bool.false_eq_true, if_false, stageTwo]
    exact coupling_mean w hw dt _
  have hr0 : mean w (rest : St n).uv3 = 0 := by simp [rest, mean]
  have key : ∀ N, momentum w dt (runRK w dt (steady e f) N rest) = N * dt * (e + mean w f) ∧
      mean w (runRK w dt (steady e f) N rest).uv3 = 0 := by
    intro N
    induction N with
    | zero =>
      refine ⟨?_, hr0⟩
      simp only [runRK, Function.iterate_zero, id, momentum, hr0]
      simp [rest]
    | succ N ih =>
      unfold runRK at *
      rw [Function.iterate_succ_apply']
      refine ⟨?_, hm0 _⟩
      rw [hb, ih.1]
      simp only [steady]
      push_cast
      ring
  have h1 := (key (N + 1)).1
  have h2 := (key (N + 1)).2
  have h3 := hsp _ (key N).2
  unfold runRK at *
  rw [Function.iterate_succ_apply'] at *
  unfold momentum at h1
  rw [h2, h3] at h1
  push_cast at h1
  linarith

/-- The leap-frog scheme passes on the 3D forces of the prediction only, over the length `(1 - 2γ) dt` of the
prediction, together with the averages left in the deviation. -/
theorem C96_leapfrog (w : Fin n → ℚ) (dt : ℚ) (hdt : 0 < dt) (implicit : Bool) (q : Eqs n)
    (hl : ∀ u, mean w (q.lim u) = mean w u) (s : St n) :
    (advanceLF w dt implicit q s).uv2 = s.uv2 + dt * q.ext 0 (predict w dt q s)
      + 1 / 3 * mean w s.old + 2 / 3 * mean w s.uv3 + dt * (5 / 6 * mean w (q.expl s)) := by
  have hu : (advanceLF w dt implicit q s).uv2
      = s.uv2 + dt * (q.ext 0 (predict w dt q s) + (predict w dt q s).split) := by
    unfold advanceLF
    cases implicit <;> rfl
  have hs : (predict w dt q s).split
      = (1 / 3 * mean w s.old + 2 / 3 * mean w s.uv3 + 5 / 6 * (dt * mean w (q.expl s))) / dt := by
    simp only [predict, coupling]
    rw [hl, mean_two w s.old s.uv3 (fun i => dt * q.expl s i), mean_smul]
    norm_num [gam]
  rw [hu, hs]
  field_simp
  ring

/-- Shear in the leap-frog scheme: the forces that change the deviation are evaluated in a state `h` whose
full velocity has the depth average `2/3` new plus `1/3` old velocity of the 2D mode and the deviation of the
prediction (`1/3` of the last but one, `2/3` of the last state, forces over `5/6 dt`); the full step starts
from the last state, and the new depth average is that of the 2D mode. -/
theorem C96_leapfrog_shear (w : Fin n → ℚ) (hw : ∑ i, w i = 1) (dt : ℚ) (q : Eqs n) (s : St n) :
    ∃ h : St n, h.uv2 = (advanceLF w dt false q s).uv2 ∧
      mean w h.total = 2 / 3 * (advanceLF w dt false q s).uv2 + 1 / 3 * s.uv2 ∧
      (∀ p, p = q.lim (fun i => 1 / 3 * s.old i + 2 / 3 * s.uv3 i + 5 / 6 * (dt * q.expl s i)) →
        ∀ i, h.total i - mean w h.total = p i - mean w p) ∧
      ∀ c, c = q.lim (fun i => s.uv3 i + dt * q.expl h i) →
        ∀ i, (advanceLF w dt false q s).total i = (advanceLF w dt false q s).uv2 + (c i - mean w c) := by
  have hp : q.lim (fun i => (1 / 2 - 2 * gam) * s.old i + (1 / 2 + 2 * gam) * s.uv3 i
      + (1 - 2 * gam) * (dt * q.expl s i))
      = q.lim (fun i => 1 / 3 * s.old i + 2 / 3 * s.uv3 i + 5 / 6 * (dt * q.expl s i)) := by
    norm_num [gam]
  have hm : mean w (halfStep w dt s.uv2 (step2d dt q (predict w dt q s))).uv3 = 0 := by
    simp only [halfStep]
    exact coupling_mean w hw dt _
  have hm1 : mean w (step2d dt q (predict w dt q s)).uv3 = 0 := coupling_mean w hw dt _
  refine ⟨halfStep w dt s.uv2 (step2d dt q (predict w dt q s)), rfl, ?_, ?_, ?_⟩
  · rw [total_mean w hw, hm]
    change 0 + ((1 / 2 + 2 * gam) * (advanceLF w dt false q s).uv2 + (1 / 2 - 2 * gam) * s.uv2) = _
    norm_num [gam]
  · intro p hpp i
    rw [total_mean w hw, hm]
    have e : (halfStep w dt s.uv2 (step2d dt q (predict w dt q s))).uv3 i
        = (step2d dt q (predict w dt q s)).uv3 i - mean w (step2d dt q (predict w dt q s)).uv3 := rfl
    have e2 : (step2d dt q (predict w dt q s)).uv3 i = p i - mean w p := by
      rw [hpp, ← hp]
      rfl
    unfold St.total
    rw [e, hm1, e2]
    ring
  · intro c hc i
    have e : (advanceLF w dt false q s).total i = (c i - mean w c) + (advanceLF w dt false q s).uv2 := by
      rw [hc]
      rfl
    rw [e]
    ring

/-- Impulses of the implicit vertical step are passed on completely by the leap-frog scheme: without explicit
3D forces `uv_2d + mean uv_3d + 1/3 mean solution_old` changes by the 2D forces and the impulse. -/
theorem C96_leapfrog_implicit (w : Fin n → ℚ) (hw : ∑ i, w i = 1) (dt : ℚ) (hdt : 0 < dt) (q : Eqs n)
    (hl : ∀ u, mean w (q.lim u) = mean w u) (hq : ∀ s, mean w (q.expl s) = 0) (s : St n) :
    (advanceLF w dt true q s).uv2 + mean w (advanceLF w dt true q s).uv3
        + 1 / 3 * mean w (advanceLF w dt true q s).old
      = s.uv2 + mean w s.uv3 + 1 / 3 * mean w s.old + dt * q.ext 0 (predict w dt q s)
        + (mean w (q.impl (advanceLF w dt false q s) (advanceLF w dt false q s).total)
          - mean w (advanceLF w dt false q s).total) := by
  have h1 := C96_leapfrog w dt hdt true q hl s
  rw [hq] at h1
  have hold : (advanceLF w dt true q s).old = s.uv3 := rfl
  have hv : mean w (advanceLF w dt true q s).uv3
      = mean w (q.impl (advanceLF w dt false q s) (advanceLF w dt false q s).total)
        - mean w (advanceLF w dt false q s).total := by
    have e1 : (advanceLF w dt true q s) = vertical q (advanceLF w dt false q s) := rfl
    have e2 : mean w (advanceLF w dt false q s).uv3 = 0 := by
      simp only [advanceLF, Bool.false_eq_true, if_false, correct]
      exact coupling_mean w hw dt _
    rw [e1]
    have ht : (fun j => (advanceLF w dt false q s).uv3 j + (advanceLF w dt false q s).dav3)
        = (advanceLF w dt false q s).total := rfl
    simp only [vertical]
    rw [mean_subc w hw, ht, total_mean w hw, e2]
    ring
  rw [h1, hold, hv]
  ring

/-- Under steady forces the leap-frog scheme gives `t (e + 5/6 mean f)`: forces of the 3D equation drive
the depth averaged flow with five sixths of their strength, and the error grows with time. -/
theorem C96_leapfrog_violated (w : Fin n → ℚ) (hw : ∑ i, w i = 1) (dt : ℚ) (hdt : 0 < dt) (e : ℚ)
    (f : Fin n → ℚ) (N : ℕ) :
    (runLF w dt (steady e f) N rest).uv2 = N * dt * (e + 5 / 6 * mean w f) ∧
      mean w (runLF w dt (steady e f) N rest).uv3 = 0 := by
  have hm0 : ∀ s : St n, mean w (advanceLF w dt false (steady e f) s).uv3 = 0 := fun s => by
    simp only [advanceLF, Bool.false_eq_true, if_false, correct]
    exact coupling_mean w hw dt _
  have key : (runLF w dt (steady e f) N rest).uv2 = N * dt * (e + 5 / 6 * mean w f) ∧
      mean w (runLF w dt (steady e f) N rest).uv3 = 0 ∧
      mean w (runLF w dt (steady e f) N rest).old = 0 := by
    induction N with
    | zero =>
      simp [runLF, rest, mean]
    | succ N ih =>
      unfold runLF at *
      rw [Function.iterate_succ_apply']
      refine ⟨?_, hm0 _, ih.2.1⟩
      rw [C96_leapfrog w dt hdt false (steady e f) (fun _ => rfl), ih.1, ih.2.1, ih.2.2]
      simp only [steady]
      push_cast
      ring
  exact ⟨key.1, key.2.1⟩

/-- The example: two equal layers, a force of 1 in the upper one; after 600 steps of 1 s the velocity is
299.75 with the two-stage scheme and 250 with the leap-frog scheme (exact: 300). -/
example : (runRK (fun _ : Fin 2 => 1 / 2) 1 (steady 0 fun i => i) 600 rest).uv2 = 29975 / 100 ∧
    (runLF (fun _ : Fin 2 => 1 / 2) 1 (steady 0 fun i => i) 600 rest).uv2 = 250 := by
  constructor
  · rw [C96_steady _ (by norm_num [Fin.sum_univ_two]) 1 (by norm_num) 0 _ 599]
    norm_num [mean, Fin.sum_univ_two]
  · rw [(C96_leapfrog_violated _ (by norm_num [Fin.sum_univ_two]) 1 (by norm_num) 0 _ 600).1]
    norm_num [mean, Fin.sum_univ_two]

end Verif.Split
