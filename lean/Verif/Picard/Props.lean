import Verif.Picard.Model
import Mathlib.Tactic.Module
import Mathlib.Tactic.NormNum
import Mathlib.Tactic.Ring
import Mathlib.Tactic.LinearCombination
import Mathlib.Analysis.SpecialFunctions.Sqrt
import Mathlib.Algebra.BigOperators.Group.List.Basic

/-!
C106: the pressure projection scheme; C107: forcings of the two-level schemes.
-/

namespace Verif.Picard

variable {U E F C : Type} [AddCommGroup U] [Module ℝ U] [AddCommGroup E] [Module ℝ E]

omit [AddCommGroup U] [Module ℝ U] [AddCommGroup E] [Module ℝ E] in
/-- All terms are those of the three labels. -/
theorem all_eq {W : Type} [AddCommGroup W] (l : List (Term U E F C W)) (u : U) (e : E) (u' : U) (e' : E) (fn : F) (c : C) :
    all l u e u' e' fn c = only .implicit l u e u' e' fn c
      + (only .explicit l u e u' e' fn c + only .source l u e u' e' fn c) := by
  induction l with
  | nil => simp [all, only]
  | cons t l ih =>
    simp only [all, only, List.map_cons, List.sum_cons, List.filter_cons] at ih ⊢
    rw [ih]
    cases t.label <;> simp <;> abel

/-- The terms that are not labelled implicit. -/
def rest {W : Type} [AddCommGroup W] (l : List (Term U E F C W)) (u : U) (e : E) (u' : U) (e' : E) (fn : F) (c : C) : W :=
  only .explicit l u e u' e' fn c + only .source l u e u' e' fn c

variable (x : Ctx U E F C)

/-- C106: one iteration is a step of the theta scheme, linearised about the lagged solution, with the explicit and source
terms at the velocity `us` of the momentum solve: the momentum solve and the correction of the wave system cancel for all
implicit terms. -/
theorem C106_step (lag new : U × E) (h : Iter x lag new) : ∃ us : U,
    new.1 - x.uOld = x.dt • (x.theta • (
        only .implicit x.eqs.mom new.1 new.2 (if x.semi then lag.1 else new.1) (if x.semi then lag.2 else new.2) x.fn x.c
          + rest x.eqs.mom us lag.2 (if x.semi then lag.1 else us) lag.2 x.fn x.c)
        + (1 - x.theta) • all x.eqs.mom x.uOld x.eOld x.uOld x.eOld x.fnOld x.c) ∧
      us - new.1 = (x.dt * x.theta) • (
        only .implicit x.eqs.mom us lag.2 (if x.semi then lag.1 else us) lag.2 x.fn x.c
        - only .implicit x.eqs.mom new.1 new.2 (if x.semi then lag.1 else new.1) (if x.semi then lag.2 else new.2) x.fn x.c) := by
  obtain ⟨us, h1, h2, -⟩ := h
  refine ⟨us, ?_, ?_⟩
  · unfold momForm at h1
    unfold waveU at h2
    rw [all_eq] at h1
    change us - x.uOld - x.dt • (x.theta • (_ + rest _ _ _ _ _ _ _) + _) = 0 at h1
    linear_combination (norm := module) h1 + h2
  · unfold waveU at h2
    linear_combination (norm := module) -h2

/-- C106: if source and explicit terms do not depend on the solution, one iteration is the theta scheme linearised about the
lagged solution; without linearisation it is the theta scheme itself. -/
theorem C106_theta (hr : ∀ u e u' e' v f v' f' fn c,
      rest x.eqs.mom u e u' e' fn c = rest x.eqs.mom v f v' f' fn c) (lag new : U × E) (h : Iter x lag new) :
    new.1 - x.uOld = x.dt • (x.theta • all x.eqs.mom new.1 new.2 (if x.semi then lag.1 else new.1)
        (if x.semi then lag.2 else new.2) x.fn x.c
      + (1 - x.theta) • all x.eqs.mom x.uOld x.eOld x.uOld x.eOld x.fnOld x.c) := by
  obtain ⟨us, h, -⟩ := C106_step x lag new h
  rw [h, all_eq _ new.1 new.2]
  change _ = x.dt • (x.theta • (_ + rest _ _ _ _ _ _ _) + _)
  rw [hr us lag.2 _ lag.2 new.1 new.2]

/-- C106: converged iterations satisfy the nonlinear theta scheme, provided the implicit momentum equation has one solution. -/
theorem C106_converged (new : U × E) (h : Iter x new new)
    (hu : ∀ u v : U, u - v = (x.dt * x.theta) • (
      only .implicit x.eqs.mom u new.2 (if x.semi then new.1 else u) new.2 x.fn x.c
        - only .implicit x.eqs.mom v new.2 (if x.semi then new.1 else v) new.2 x.fn x.c) → u = v) :
    new.1 - x.uOld = x.dt • (x.theta • all x.eqs.mom new.1 new.2 new.1 new.2 x.fn x.c
      + (1 - x.theta) • all x.eqs.mom x.uOld x.eOld x.uOld x.eOld x.fnOld x.c) := by
  obtain ⟨us, h1, h2⟩ := C106_step x new new h
  have e : us = new.1 := hu _ _ (by
    rw [h2]
    cases x.semi <;> simp)
  rw [h1, e, all_eq _ new.1 new.2 new.1]
  unfold rest
  cases x.semi <;> simp

/-- C106: the elevation after any number of iterations: the wave equation at theta with the implicit continuity terms. -/
theorem C106_elevation (n : ℕ) (s s' : U × E) (h : Iters x (n + 1) s s') : ∃ lag : U × E,
    s'.2 + x.eqs.disp s'.2 - x.eOld = x.dt • (x.theta • only .implicit x.eqs.cont s'.1 s'.2
        (if x.semi then lag.1 else s'.1) (if x.semi then lag.2 else s'.2) x.fn x.c
      + (1 - x.theta) • only .implicit x.eqs.cont x.uOld x.eOld x.uOld x.eOld x.fnOld x.c) := by
  induction n generalizing s with
  | zero =>
    obtain ⟨t, ⟨us, -, -, h3⟩, rfl⟩ := h
    exact ⟨s, sub_eq_zero.1 h3⟩
  | succ n ih =>
    obtain ⟨t, -, h⟩ := h
    exact ih t h

/-- C106: for wave equations without nonlinear terms, that is, if implicit terms do not depend on the lagged solution and the
other momentum terms do not depend on the solution, any number of iterations gives the theta scheme. -/
theorem C106_linear (hm : ∀ u e u' e' v' f' fn c,
      only .implicit x.eqs.mom u e u' e' fn c = only .implicit x.eqs.mom u e v' f' fn c)
    (hc : ∀ u e u' e' v' f' fn c,
      only .implicit x.eqs.cont u e u' e' fn c = only .implicit x.eqs.cont u e v' f' fn c)
    (hr : ∀ u e u' e' v f v' f' fn c, rest x.eqs.mom u e u' e' fn c = rest x.eqs.mom v f v' f' fn c)
    (hs : ∀ u e u' e' fn c, rest x.eqs.cont u e u' e' fn c = 0) (hd : ∀ e, x.eqs.disp e = 0)
    (n : ℕ) (s' : U × E) (h : Advance x (n + 1) s') :
    s'.1 - x.uOld = x.dt • (x.theta • all x.eqs.mom s'.1 s'.2 s'.1 s'.2 x.fn x.c
        + (1 - x.theta) • all x.eqs.mom x.uOld x.eOld x.uOld x.eOld x.fnOld x.c) ∧
      s'.2 - x.eOld = x.dt • (x.theta • all x.eqs.cont s'.1 s'.2 s'.1 s'.2 x.fn x.c
        + (1 - x.theta) • all x.eqs.cont x.uOld x.eOld x.uOld x.eOld x.fnOld x.c) := by
  unfold Advance at h
  constructor
  · generalize (x.uOld, x.eOld) = s at h
    induction n generalizing s with
    | zero =>
      obtain ⟨t, h, rfl⟩ := h
      rw [C106_theta x hr s s' h]
      congr 3
      rw [all_eq, all_eq _ s'.1 s'.2 s'.1, hm _ _ _ _ s'.1 s'.2]
      change _ + rest _ _ _ _ _ _ _ = _ + rest _ _ _ _ _ _ _
      rw [hr _ _ _ _ s'.1 s'.2 s'.1 s'.2]
    | succ n ih =>
      obtain ⟨t, -, h⟩ := h
      exact ih t h
  · obtain ⟨lag, h⟩ := C106_elevation x n _ s' h
    rw [hd, add_zero] at h
    rw [h, all_eq, all_eq]
    change _ = x.dt • (x.theta • (_ + rest _ _ _ _ _ _ _) + (1 - x.theta) • (_ + rest _ _ _ _ _ _ _))
    rw [hs, hs, add_zero, add_zero, hc s'.1 s'.2 s'.1 s'.2]

/-- A wave of one velocity and one elevation that meets the hypotheses of `C106_linear`. -/
example : Advance (⟨⟨[⟨.implicit, fun _ e _ _ _ _ => -e⟩], [⟨.implicit, fun u _ _ _ _ _ => u⟩], fun _ => 0⟩, 1 / 2, 2, true, (), (), (),
    0, 1⟩ : Ctx ℝ ℝ Unit Unit) 1 (-1, 0) := by
  refine ⟨(-1, 0), ⟨-2, ?_, ?_, ?_⟩, rfl⟩
  · norm_num [momForm, all]
  · norm_num [waveU, only]
  · norm_num [waveE, only]

/-- C106: where no water flows in or out, the volume is kept. `vol` is the integral of the elevation. -/
theorem C106_volume (vol : E →+ ℝ) (hv : ∀ (r : ℝ) e, vol (r • e) = r * vol e)
    (hc : ∀ u e u' e' fn c, vol (only .implicit x.eqs.cont u e u' e' fn c) = 0) (hd : ∀ e, x.eqs.disp e = 0)
    (n : ℕ) (s' : U × E) (h : Advance x (n + 1) s') : vol s'.2 = vol x.eOld := by
  obtain ⟨lag, h⟩ := C106_elevation x n _ s' h
  have := congrArg vol h
  rw [hd, add_zero, map_sub, hv, map_add, hv, hv, hc, hc, mul_zero, mul_zero, add_zero, mul_zero] at this
  exact sub_eq_zero.1 this

/-- C106: a state at rest is a solution of each iteration. -/
theorem C106_rest (h0 : ∀ fn, all x.eqs.mom x.uOld x.eOld x.uOld x.eOld fn x.c = 0)
    (hc : ∀ fn, only .implicit x.eqs.cont x.uOld x.eOld x.uOld x.eOld fn x.c = 0) (hd : ∀ e, x.eqs.disp e = 0) (n : ℕ) :
    Advance x n (x.uOld, x.eOld) := by
  have one : Iter x (x.uOld, x.eOld) (x.uOld, x.eOld) := by
    refine ⟨x.uOld, ?_, ?_, ?_⟩
    · unfold momForm
      simp only [ite_self, h0, sub_self, smul_zero, add_zero]
    · unfold waveU
      simp only [ite_self]
      module
    · unfold waveE
      simp only [ite_self, hc, hd, smul_zero, add_zero, sub_self]
  unfold Advance
  induction n with
  | zero => rfl
  | succ n ih => exact ⟨_, one, ih⟩

/-- C106 is violated: volume sources have no effect. Equations that differ only in continuity terms that are not labelled
implicit have the same steps. -/
theorem C106_source_violated (S : Term U E F C E) (hS : S.label = .source) (n : ℕ) (s' : U × E) :
    Advance { x with eqs := { x.eqs with cont := x.eqs.cont ++ [S] } } n s' ↔ Advance x n s' := by
  have e : ∀ s t, Iter { x with eqs := { x.eqs with cont := x.eqs.cont ++ [S] } } s t ↔ Iter x s t := by
    intro s t
    unfold Iter waveE
    have : ∀ u e u' e' fn c, only .implicit (x.eqs.cont ++ [S]) u e u' e' fn c = only .implicit x.eqs.cont u e u' e' fn c := by
      intro u e u' e' fn c
      simp [only, List.filter_append, hS]
    simp only [this]
    rfl
  unfold Advance
  change Iters _ n (x.uOld, x.eOld) s' ↔ _
  generalize (x.uOld, x.eOld) = s
  induction n generalizing s with
  | zero => rfl
  | succ n ih =>
    simp only [Iters, e, ih]

/-- C106 is violated for a rising basin: with volume source 1 and no other term the elevation should rise by the time step. -/
example : ∃ (x : Ctx ℝ ℝ Unit Unit), x.dt = 1 ∧ x.eOld = 0 ∧ x.eqs.cont = [⟨.source, fun _ _ _ _ _ _ => 1⟩] ∧
    Advance x 2 (0, 0) ∧ ∀ s', Advance x 2 s' → s'.2 = 0 := by
  refine ⟨⟨⟨[], [⟨.source, fun _ _ _ _ _ _ => 1⟩], fun _ => 0⟩, 1 / 2, 1, true, (), (), (), 0, 0⟩, rfl, rfl, rfl, ?_, ?_⟩
  · exact C106_rest _ (fun _ => rfl) (fun _ => rfl) (fun _ => rfl) 2
  · intro s' h
    obtain ⟨lag, h⟩ := C106_elevation _ 1 _ s' h
    simpa [only] using h

/-- C106 is violated with wetting and drying: from rest, with the displacement of a positive wetting and drying parameter, the
elevation falls in every step. In one dimension of state (a basin of uniform elevation `e` over bathymetry `b`): -/
theorem C106_drying_violated (b alpha theta dt e : ℝ) (ha : 0 < alpha) (n : ℕ) (s' : ℝ × ℝ)
    (h : Advance (⟨⟨[], [], fun e => 1 / 2 * (√((b + e) ^ 2 + alpha ^ 2) - (b + e))⟩, theta, dt, true, (), (), (), 0, e⟩ :
      Ctx ℝ ℝ Unit Unit) (n + 1) s') :
    s'.2 < e := by
  obtain ⟨lag, h⟩ := C106_elevation _ n _ s' h
  simp only [only, List.filter_nil, List.map_nil, List.sum_nil, smul_zero, add_zero] at h
  have : b + s'.2 < √((b + s'.2) ^ 2 + alpha ^ 2) := by
    refine Real.lt_sqrt_of_sq_lt ?_
    have := sq_pos_of_pos ha
    linarith
  linarith

/-- C106 is violated: the options for the pressure solver have no effect on it. -/
theorem C106_pressure_options_violated (o : Opts) (p : Params) : solverParams { o with pressure := p } = solverParams o := rfl

theorem lookup_setdefault (k v k' : String) (p : Params) :
    (setdefault k v p).lookup k' = (p.lookup k').or (if k' = k then some v else none) := by
  unfold setdefault
  split
  · next h =>
    by_cases e : k' = k
    · subst e
      obtain ⟨w, hw⟩ := Option.isSome_iff_exists.1 h
      simp [hw]
    · simp [e]
  · rw [List.lookup_append]
    simp only [List.lookup]
    by_cases e : k' = k
    · simp [e]
    · simp [beq_eq_false_iff_ne.2 e, e]

/-- C106: the momentum solver gets the options for it, and the linear or nonlinear solver according to the linearisation if
the options do not say which. -/
theorem C106_momentum_options (o : Opts) (k : String) : (solverParams o).1.lookup k =
    (o.momentum.lookup k).or (if k = "snes_type" then some (if o.semi then "ksponly" else "newtonls") else none) :=
  lookup_setdefault _ _ _ _

theorem lookup_filter_ne (p : Params) (k k' : String) (h : k' ≠ k) :
    (p.filter fun kv => kv.1 ≠ k).lookup k' = p.lookup k' := by
  induction p with
  | nil => rfl
  | cons a l ih =>
    obtain ⟨x, v⟩ := a
    by_cases hx : x = k
    · have : (k' == x) = false := by simp [hx, h]
      simp only [List.lookup, this]
      rw [List.filter_cons_of_neg (by simp [hx]), ih]
    · rw [List.filter_cons_of_pos (by simp [hx])]
      simp only [List.lookup, ih]

/-- C106: the pressure solver gets the options of the integrator, with the same default, and an assembled matrix if it uses
a direct solver; nothing the user says about other things is lost. -/
theorem C106_pressure_solver (o : Opts) (k : String) : (solverParams o).2.lookup k =
    if o.params.lookup "pc_type" = some "lu" ∧ k = "mat_type" then some "aij"
    else (o.params.lookup k).or (if k = "snes_type" then some (if o.semi then "ksponly" else "newtonls") else none) := by
  have hpc : (setdefault "snes_type" (if o.semi then "ksponly" else "newtonls") o.params).lookup "pc_type" =
      o.params.lookup "pc_type" := by
    rw [lookup_setdefault, if_neg (by decide), Option.or_none]
  unfold solverParams
  simp only [hpc]
  by_cases hlu : o.params.lookup "pc_type" = some "lu"
  · by_cases hk : k = "mat_type"
    · simp [hlu, hk]
    · have hb : (k == "mat_type") = false := by simp [hk]
      simp only [hlu, hk, and_false, if_true, if_false, List.lookup, hb]
      rw [lookup_filter_ne _ _ _ hk, lookup_setdefault]
  · simp only [hlu, false_and, if_false]
    rw [lookup_setdefault]

/-! ### C107 -/

/-- C107: forcings given as fields enter the theta scheme at both times; for a forcing that is linear in time the
Crank-Nicolson scheme is exact. -/
theorem C107_fields (dt a b : ℝ) (semi : Bool) (us : ℕ → ℝ)
    (h : CnRun (1 / 2) dt semi (fun _ _ (f : ℝ) (_ : Unit) => f) (fun t => a + b * t) (fun _ => ()) us) (n : ℕ) :
    us n = us 0 + a * (n * dt) + b * (n * dt) ^ 2 / 2 := by
  induction n with
  | zero => simp
  | succ n ih =>
    have := h n
    unfold cnForm at this
    simp only [smul_eq_mul] at this
    push_cast
    linear_combination this + ih

/-- C107 is violated for forcings given as constants and for boundary conditions: both residuals get the value at the new time, and
the error of one order of the time step remains at any fixed time `n dt`. -/
theorem C107_constants_violated (theta dt a b : ℝ) (semi : Bool) (us : ℕ → ℝ)
    (h : CnRun theta dt semi (fun _ _ (_ : Unit) (f : ℝ) => f) (fun _ => ()) (fun t => a + b * t) us) (n : ℕ) :
    us n = us 0 + a * (n * dt) + b * (n * dt) ^ 2 / 2 + b * (n * dt) / 2 * dt := by
  induction n with
  | zero => simp
  | succ n ih =>
    have := h n
    unfold cnForm at this
    simp only [smul_eq_mul] at this
    push_cast
    linear_combination this + ih

/-- C107: the general form of a step. Fields enter at the old and the new time, constants and boundary values at the new time. -/
theorem C107_run (theta dt : ℝ) (semi : Bool) (R : U → U → F → C → U) (fn : ℝ → F) (c : ℝ → C) (us : ℕ → U)
    (h : CnRun theta dt semi R fn c us) (k : ℕ) :
    us (k + 1) - us k = dt • (theta • R (us (k + 1)) (if semi then us k else us (k + 1)) (fn ((k + 1) * dt)) (c ((k + 1) * dt))
      + (1 - theta) • R (us k) (us k) (fn (k * dt)) (c ((k + 1) * dt))) :=
  sub_eq_zero.1 (h k)

/-- C107: the forward Euler scheme takes fields at the old time. -/
theorem C107_euler (dt a b : ℝ) (us : ℕ → ℝ)
    (h : FeRun dt (fun _ _ (f : ℝ) (_ : Unit) => f) (fun t => a + b * t) (fun _ => ()) us) (n : ℕ) :
    us n = us 0 + a * (n * dt) + b * (n * dt) ^ 2 / 2 - b * (n * dt) / 2 * dt := by
  induction n with
  | zero => simp
  | succ n ih =>
    have := h n
    simp only [smul_eq_mul] at this
    push_cast
    linear_combination this + ih

/-- C107 is violated by forward Euler for constants and boundary values: they enter at the new time, as in an implicit scheme. -/
theorem C107_euler_violated (dt a b : ℝ) (us : ℕ → ℝ)
    (h : FeRun dt (fun _ _ (_ : Unit) (f : ℝ) => f) (fun _ => ()) (fun t => a + b * t) us) (n : ℕ) :
    us n = us 0 + a * (n * dt) + b * (n * dt) ^ 2 / 2 + b * (n * dt) / 2 * dt := by
  induction n with
  | zero => simp
  | succ n ih =>
    have := h n
    simp only [smul_eq_mul] at this
    push_cast
    linear_combination this + ih

/-- C107: what `SteadyState` returns does not depend on the state before, the time step and the time, if the forcings do not,
and it is a steady solution of all the schemes: Crank-Nicolson and forward Euler do not move it. -/
theorem C107_steady (R : U → U → F → C → U) (fn : F) (c : C) (t dt theta : ℝ) (semi : Bool) (u : U)
    (h : Steady R (fun _ => fn) (fun _ => c) t dt u) :
    CnRun theta dt semi R (fun _ => fn) (fun _ => c) (fun _ => u) ∧ FeRun dt R (fun _ => fn) (fun _ => c) (fun _ => u) := by
  have h' : R u u fn c = 0 := h
  constructor
  · intro k
    simp [cnForm, h']
  · intro k
    simp [h']

/-- C107: and forcings that change in time are taken at the end of the step, fields and constants alike. -/
theorem C107_steady_time (fn c : ℝ → ℝ) (t dt u : ℝ)
    (h : Steady (fun u _ f k => f + k - u) fn c t dt u) : u = fn (t + dt) + c (t + dt) := by
  have h' : fn (t + dt) + c (t + dt) - u = 0 := h
  linarith

example : Steady (fun (u : ℝ) _ (f k : ℝ) => f + k - u) (fun t => t) (fun t => 2 * t) 1 1 6 := by
  norm_num [Steady]

/-- A run that meets the hypotheses of `C107_constants_violated`. -/
example : CnRun (1 / 2) 1 true (fun _ _ (_ : Unit) (f : ℝ) => f) (fun _ => ()) (fun t => 0 + 1 * t)
    (fun n : ℕ => (n : ℝ) * (n + 1) / 2) := by
  intro k
  unfold cnForm
  simp only [smul_eq_mul]
  push_cast
  ring

end Verif.Picard
