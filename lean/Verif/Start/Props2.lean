import Verif.Start.Props
import Verif.Split.Props
import Verif.Turb.ClosureProps

/-!
C114: initial velocity of a 3D run.  C115: what a restart loses.  C116: frequencies on a moving mesh.
-/

namespace Verif.Start

open Verif.Split (mean momentum runRK steady rest)

/-! ### The limits of the closure -/

/-- C113: the limits of the `gls` closure are idempotent, which is the assumption of `C113_rk`: applied to a state that they
made they change nothing, viscosities included. -/
theorem C113_limits (o : Turb.GlsOpts) (stab : ℝ → ℝ → ℝ → ℝ → ℝ × ℝ) (s : Turb.GlsState) :
    Turb.postprocess o stab (Turb.postprocess o stab s) = Turb.postprocess o stab s := by
  have hk : Turb.setMin (Turb.setMin s.k o.kMin) o.kMin = Turb.setMin s.k o.kMin := by
    simp [Turb.setMin_eq_max]
  have hpsi : ∀ P psi : ℝ, Turb.setMin (min (Turb.setMin (min psi P) o.psiMin) P) o.psiMin
      = Turb.setMin (min psi P) o.psiMin := by
    intro P psi
    simp only [Turb.setMin_eq_max]
    rcases le_total (min psi P) o.psiMin with h | h
    · rw [max_eq_right h]
      exact max_eq_right (min_le_left _ _)
    · rw [max_eq_left h, min_eq_left (min_le_right _ _), max_eq_left h]
  have hpsi' : ∀ P psi : ℝ, Turb.setMin (max (Turb.setMin (max psi P) o.psiMin) P) o.psiMin
      = Turb.setMin (max psi P) o.psiMin := by
    intro P psi
    simp only [Turb.setMin_eq_max]
    rw [max_eq_left ((le_max_right psi P).trans (le_max_left _ _)), max_assoc, max_self]
  have hpsi'' : ∀ psi : ℝ, Turb.setMin (Turb.setMin psi o.psiMin) o.psiMin = Turb.setMin psi o.psiMin := by
    intro psi
    simp [Turb.setMin_eq_max]
  have h0 : (1.0 : ℝ) - 1.0 = 0 := sub_self _
  unfold Turb.postprocess
  cases o.limitPsi
  · simp only [hk, hpsi'', Bool.false_eq_true, if_false, h0, zero_mul]
  · by_cases hn : o.n > 0
    · simp only [hk, hpsi, if_true, if_pos hn, h0, zero_mul]
    · simp only [hk, hpsi', if_true, if_neg hn, h0, zero_mul]

/-- C115: the turbulence state of a run is not changed by the limits at a smaller buoyancy frequency, as that of a new
solver, whose density is zero. -/
theorem C115_limits (o : Turb.GlsOpts) (stab : ℝ → ℝ → ℝ → ℝ → ℝ × ℝ) (hc : 0 < o.cmu0) (hg : 0 < o.galperin)
    (hk : 0 < o.kMin) (s : Turb.GlsState) (n0 m n : ℝ) (h0 : 0 ≤ n0) (hn0 : n0 ≤ s.n2pos) :
    (Turb.postprocess o stab { Turb.postprocess o stab s with n2pos := n0, m2 := m, n2 := n }).k
        = (Turb.postprocess o stab s).k ∧
      (Turb.postprocess o stab { Turb.postprocess o stab s with n2pos := n0, m2 := m, n2 := n }).psi
        = (Turb.postprocess o stab s).psi := by
  have hkk : Turb.setMin (Turb.setMin s.k o.kMin) o.kMin = Turb.setMin s.k o.kMin := by
    simp [Turb.setMin_eq_max]
  have hkpos : 0 < Turb.setMin s.k o.kMin := lt_of_lt_of_le hk (Turb.le_setMin _ _)
  refine ⟨hkk, ?_⟩
  set k := Turb.setMin s.k o.kMin with hkdef
  -- the limit at the smaller frequency is weaker
  have hbase : 0 < (n0 + 1e-12 : ℝ) := by positivity
  have hpow : (s.n2pos + 1e-12 : ℝ) ^ (-0.5 : ℝ) ≤ (n0 + 1e-12 : ℝ) ^ (-0.5 : ℝ) :=
    Real.rpow_le_rpow_of_nonpos hbase (by linarith) (by norm_num)
  have hA : 0 < Real.sqrt 2 * o.galperin * o.cmu0 ^ (o.p / o.n) * k ^ (o.m / o.n + 0.5) := by positivity
  have hx : 0 < Real.sqrt 2 * o.galperin * o.cmu0 ^ (o.p / o.n) * k ^ (o.m / o.n + 0.5)
      * (s.n2pos + 1e-12 : ℝ) ^ (-0.5 : ℝ) := by
    have : 0 < (s.n2pos + 1e-12 : ℝ) := by linarith
    positivity
  have hle := mul_le_mul_of_nonneg_left hpow hA.le
  have key : ∀ psi : ℝ,
      Turb.setMin (if o.limitPsi then (if o.n > 0
        then min (Turb.setMin (if o.limitPsi then (if o.n > 0 then min psi (Turb.psiLimit o k s.n2pos)
          else max psi (Turb.psiLimit o k s.n2pos)) else psi) o.psiMin) (Turb.psiLimit o k n0)
        else max (Turb.setMin (if o.limitPsi then (if o.n > 0 then min psi (Turb.psiLimit o k s.n2pos)
          else max psi (Turb.psiLimit o k s.n2pos)) else psi) o.psiMin) (Turb.psiLimit o k n0))
        else Turb.setMin (if o.limitPsi then (if o.n > 0 then min psi (Turb.psiLimit o k s.n2pos)
          else max psi (Turb.psiLimit o k s.n2pos)) else psi) o.psiMin) o.psiMin
      = Turb.setMin (if o.limitPsi then (if o.n > 0 then min psi (Turb.psiLimit o k s.n2pos)
          else max psi (Turb.psiLimit o k s.n2pos)) else psi) o.psiMin := by
    intro psi
    cases o.limitPsi
    · simp [Turb.setMin_eq_max]
    · simp only [if_true, Turb.setMin_eq_max]
      by_cases hn : o.n > 0
      · simp only [if_pos hn]
        have hP : Turb.psiLimit o k s.n2pos ≤ Turb.psiLimit o k n0 :=
          Real.rpow_le_rpow hx.le hle hn.le
        rcases le_total (min psi (Turb.psiLimit o k s.n2pos)) o.psiMin with h | h
        · rw [max_eq_right h]
          exact max_eq_right (min_le_left _ _)
        · rw [max_eq_left h, min_eq_left ((min_le_right _ _).trans hP), max_eq_left h]
      · simp only [if_neg hn]
        have hP : Turb.psiLimit o k n0 ≤ Turb.psiLimit o k s.n2pos :=
          Real.rpow_le_rpow_of_nonpos hx hle (not_lt.1 hn)
        rw [max_eq_left (hP.trans ((le_max_right psi _).trans (le_max_left _ _))), max_assoc, max_self]
  have e := key s.psi
  simpa only [Turb.postprocess, ← hkdef, hkk] using e

/-! ### Initial velocity -/

variable {n : ℕ}

/-- Without forces the momentum is kept, and the 2D mode has all of it from the second step on. -/
theorem two_steps (w : Fin n → ℚ) (hw : ∑ i, w i = 1) (dt : ℚ) (hdt : 0 < dt) (s : Split.St n) (N : ℕ) :
    (runRK w dt (steady 0 fun _ => 0) (N + 2) s).uv2 = momentum w dt s ∧
      mean w (runRK w dt (steady 0 fun _ => 0) (N + 2) s).uv3 = 0 ∧
      (runRK w dt (steady 0 fun _ => 0) (N + 2) s).dav3 = momentum w dt s := by
  have hz : mean w (fun _ => (0 : ℚ)) = 0 := by simp [mean]
  have hb : ∀ s, momentum w dt (Split.advanceRK w dt false (steady 0 fun _ => 0) s) = momentum w dt s := by
    intro s
    rw [Split.C96_budget w hw dt hdt (steady 0 fun _ => 0) (fun _ => rfl)]
    simp only [steady, hz]
    ring
  have hm0 : ∀ s : Split.St n, mean w (Split.advanceRK w dt false (steady 0 fun _ => 0) s).uv3 = 0 := fun s => by
    simp only [Split.advanceRK, Bool.false_eq_true, if_false, Split.stageTwo]
    exact Split.coupling_mean w hw dt _
  have hsp : ∀ s : Split.St n, mean w s.uv3 = 0 →
      (Split.advanceRK w dt false (steady 0 fun _ => 0) s).split = 0 := by
    intro s hs
    simp only [Split.advanceRK, Split.stageTwo, Split.coupling, steady, id, Bool.false_eq_true, if_false]
    rw [Split.mean_two w (fun i => s.uv3 i + dt * 0) s.uv3 (fun _ => dt * 0), Split.mean_one, Split.mean_smul, hs, hz]
    simp
  have hd : ∀ s : Split.St n, (Split.advanceRK w dt false (steady 0 fun _ => 0) s).dav3
      = (Split.advanceRK w dt false (steady 0 fun _ => 0) s).uv2 := fun s => rfl
  have hM : ∀ N, momentum w dt (runRK w dt (steady 0 fun _ => 0) N s) = momentum w dt s := by
    intro N
    induction N with
    | zero => rfl
    | succ N ih =>
      unfold runRK at *
      rw [Function.iterate_succ_apply', hb, ih]
  have h1 : mean w (runRK w dt (steady 0 fun _ => 0) (N + 1) s).uv3 = 0 := by
    unfold runRK
    rw [Function.iterate_succ_apply']
    exact hm0 _
  have e : runRK w dt (steady 0 fun _ => 0) (N + 2) s
      = Split.advanceRK w dt false (steady 0 fun _ => 0) (runRK w dt (steady 0 fun _ => 0) (N + 1) s) := by
    unfold runRK
    rw [Function.iterate_succ_apply']
  have h2 := hM (N + 2)
  rw [e] at h2 ⊢
  have h3 : momentum w dt (Split.advanceRK w dt false (steady 0 fun _ => 0) (runRK w dt (steady 0 fun _ => 0) (N + 1) s))
      = (Split.advanceRK w dt false (steady 0 fun _ => 0) (runRK w dt (steady 0 fun _ => 0) (N + 1) s)).uv2 := by
    unfold momentum
    rw [hsp _ h1, hm0]
    ring
  rw [h3] at h2
  exact ⟨h2, hm0 _, (hd _).trans h2⟩

/-- C114: if only `uv_2d` is given the run starts with it at all depths, and keeps it without forces. -/
theorem C114_depth_averaged (w : Fin n → ℚ) (hw : ∑ i, w i = 1) (dt : ℚ) (hdt : 0 < dt) (u : ℚ) (N : ℕ) :
    (initialVel (some u) none (rest : Split.St n)).uv2 = u ∧
    (∀ i, (initialVel (some u) none (rest : Split.St n)).total i = u) ∧
    (runRK w dt (steady 0 fun _ => 0) (N + 2) (initialVel (some u) none rest)).uv2 = u := by
  refine ⟨rfl, fun i => ?_, ?_⟩
  · simp [initialVel, Split.St.total, rest]
  · rw [(two_steps w hw dt hdt _ N).1]
    simp [momentum, initialVel, rest, mean]

/-- C114: if only `uv_3d` is given the run starts with it, and its mean is the velocity of the 2D mode from the second step
on (without forces). -/
theorem C114_profile (w : Fin n → ℚ) (hw : ∑ i, w i = 1) (dt : ℚ) (hdt : 0 < dt) (v : Fin n → ℚ) (N : ℕ) :
    (initialVel none (some v) (rest : Split.St n)).total = v ∧
    (runRK w dt (steady 0 fun _ => 0) (N + 2) (initialVel none (some v) rest)).uv2 = mean w v := by
  refine ⟨?_, ?_⟩
  · funext i
    simp [initialVel, Split.St.total, rest]
  · rw [(two_steps w hw dt hdt _ N).1]
    simp [momentum, initialVel, rest]

/-- C114 violated: if only `uv_3d` is given the 2D velocity is zero at the start, and half the mean after the first step. -/
theorem C114_profile_violated (w : Fin n → ℚ) (dt : ℚ) (hdt : 0 < dt) (v : Fin n → ℚ) :
    (initialVel none (some v) (rest : Split.St n)).uv2 = 0 ∧
    (runRK w dt (steady 0 fun _ => 0) 1 (initialVel none (some v) rest)).uv2 = mean w v / 2 := by
  refine ⟨rfl, ?_⟩
  simp only [runRK, Function.iterate_one, Split.advanceRK, Split.stageTwo, Split.stageOne, Split.coupling, Split.k0,
    steady, id, Bool.false_eq_true, if_false, initialVel, rest, Option.getD_some]
  simp only [mul_zero, add_zero, zero_add]
  field_simp

/-- C114 violated: if both velocities are given, `uv_3d` being the velocity at all depths and `uv_2d` its mean, the run goes
on with twice the mean. -/
theorem C114_both_violated (w : Fin n → ℚ) (hw : ∑ i, w i = 1) (dt : ℚ) (hdt : 0 < dt) (v : Fin n → ℚ) (N : ℕ) :
    (runRK w dt (steady 0 fun _ => 0) (N + 2) (initialVel (some (mean w v)) (some v) rest)).uv2 = 2 * mean w v := by
  rw [(two_steps w hw dt hdt _ N).1]
  simp [momentum, initialVel, rest]
  ring

/-- C114: if `uv_3d` is given as the deviation from `uv_2d` the run goes on with both. -/
theorem C114_deviation (w : Fin n → ℚ) (hw : ∑ i, w i = 1) (dt : ℚ) (hdt : 0 < dt) (u : ℚ) (v : Fin n → ℚ)
    (hv : mean w v = 0) (N : ℕ) :
    (runRK w dt (steady 0 fun _ => 0) (N + 2) (initialVel (some u) (some v) rest)).uv2 = u := by
  rw [(two_steps w hw dt hdt _ N).1]
  simp [momentum, initialVel, rest, hv]

/-- C114 violated: but the velocity that is exported and advects at the start lacks `uv_2d`. -/
theorem C114_deviation_violated (u : ℚ) (v : Fin n → ℚ) :
    (initialVel (some u) (some v) (rest : Split.St n)).total = v := by
  funext i
  simp [initialVel, Split.St.total, rest]

/-- Weights and a velocity with mean 2. -/
example : (∑ i : Fin 2, (fun _ => (1 / 2 : ℚ)) i = 1) ∧ mean (fun _ : Fin 2 => (1 / 2 : ℚ)) (fun i => 1 + 2 * i) = 2 := by
  norm_num [mean, Fin.sum_univ_two]

/-! ### What a restart loses -/

/-- C115: the restarted run has the velocity of the stored one at all depths, and its 2D velocity. -/
theorem C115_velocity (w : Fin n → ℚ) (s : Split.St n) :
    (restartVel w (savedVel s)).total = s.total ∧ (restartVel w (savedVel s)).uv2 = s.uv2 := by
  refine ⟨?_, rfl⟩
  funext i
  simp [restartVel, savedVel, initialVel, Split.St.total]

/-- C115 violated: the momentum held by the coupling term and by the mean of the deviation is lost. -/
theorem C115_momentum_violated (w : Fin n → ℚ) (hw : ∑ i, w i = 1) (dt : ℚ) (s : Split.St n) :
    momentum w dt (restartVel w (savedVel s)) = momentum w dt s - dt / 2 * s.split - mean w s.uv3 := by
  unfold momentum
  simp only [restartVel, savedVel, initialVel, Option.getD_some]
  rw [Split.mean_subc w hw]
  ring

/-- C115 violated: under steady forces a run with a restart is half the 3D impulse of a step behind the uninterrupted one. -/
theorem C115_steady_violated (w : Fin n → ℚ) (hw : ∑ i, w i = 1) (dt : ℚ) (hdt : 0 < dt) (e : ℚ) (f : Fin n → ℚ)
    (N M : ℕ) :
    (runRK w dt (steady e f) (M + 1) (restartVel w (savedVel (runRK w dt (steady e f) (N + 1) rest)))).uv2
      = (runRK w dt (steady e f) (N + 1 + (M + 1)) rest).uv2 - dt / 2 * mean w f := by
  have hb := Split.C96_budget w hw dt hdt (steady e f) (fun _ => rfl)
  have hsp : ∀ s : Split.St n, mean w s.uv3 = 0 →
      (Split.advanceRK w dt false (steady e f) s).split = mean w f := by
    intro s hs
    simp only [Split.advanceRK, Split.stageTwo, Split.coupling, steady, id, Bool.false_eq_true, if_false]
    rw [Split.mean_two w (fun i => s.uv3 i + dt * f i) s.uv3 (fun i => dt * f i), Split.mean_one, Split.mean_smul, hs]
    field_simp
    ring
  have hm0 : ∀ s : Split.St n, mean w (Split.advanceRK w dt false (steady e f) s).uv3 = 0 := fun s => by
    simp only [Split.advanceRK, Bool.false_eq_true, if_false, Split.stageTwo]
    exact Split.coupling_mean w hw dt _
  have hrun : ∀ (N : ℕ) (s : Split.St n), mean w s.uv3 = 0 →
      momentum w dt (runRK w dt (steady e f) N s) = momentum w dt s + N * dt * (e + mean w f) ∧
      mean w (runRK w dt (steady e f) N s).uv3 = 0 := by
    intro N s hs
    induction N with
    | zero => exact ⟨by simp [runRK], hs⟩
    | succ N ih =>
      unfold runRK at *
      rw [Function.iterate_succ_apply']
      refine ⟨?_, hm0 _⟩
      rw [hb, ih.1]
      simp only [steady]
      push_cast
      ring
  have hlast : ∀ (N : ℕ) (s : Split.St n), mean w s.uv3 = 0 →
      (runRK w dt (steady e f) (N + 1) s).uv2
        = momentum w dt s + (N + 1) * dt * (e + mean w f) - dt / 2 * mean w f ∧
      (runRK w dt (steady e f) (N + 1) s).split = mean w f := by
    intro N s hs
    have h1 := (hrun (N + 1) s hs).1
    have h2 := (hrun (N + 1) s hs).2
    have h3 := hsp _ (hrun N s hs).2
    unfold runRK at *
    rw [Function.iterate_succ_apply'] at *
    unfold momentum at h1
    rw [h2, h3] at h1
    refine ⟨?_, h3⟩
    unfold momentum
    push_cast at h1
    linarith
  have hr0 : mean w (rest : Split.St n).uv3 = 0 := by simp [rest, mean]
  have hmid := (hrun (N + 1) rest hr0).2
  have hr1 : mean w (restartVel w (savedVel (runRK w dt (steady e f) (N + 1) rest))).uv3 = 0 := by
    simp only [restartVel, savedVel, initialVel, Option.getD_some]
    rw [Split.mean_subc w hw, sub_self]
  have hM := (hlast M _ hr1).1
  rw [C115_momentum_violated w hw, (hrun (N + 1) rest hr0).1, (hlast N rest hr0).2, hmid] at hM
  have hNM := (hlast (N + 1 + M) rest hr0).1
  rw [show N + 1 + (M + 1) = N + 1 + M + 1 by ring, hNM, hM]
  push_cast
  ring

/-! ### Frequencies on a moving mesh -/

/-- C116: on the mesh of the first use the integral of the gradient over the column is the difference between the surface and
the bed, for every field that is linear in the layers. -/
theorem C116_total (n : ℕ) (hn : 0 < n) (area : ℚ) (ha : area ≠ 0) (h0 pb pt : ℕ → ℚ) (hh : ∀ i, h0 i ≠ 0) :
    ∑ i ∈ Finset.range n, h0 i * weakGrad n area h0 pb pt i = pt (n - 1) - pb 0 := by
  have key : ∀ i, h0 i * weakGrad n area h0 pb pt i = atTop n pb pt i - atBottom pb pt i := by
    intro i
    unfold weakGrad
    have := hh i
    field_simp
  simp only [key]
  have part : ∀ m, m < n → ∑ i ∈ Finset.range (m + 1), (atTop n pb pt i - atBottom pb pt i)
      = atTop n pb pt m - pb 0 := by
    intro m
    induction m with
    | zero =>
      intro _
      simp [atBottom]
    | succ m ih =>
      intro hm
      rw [Finset.sum_range_succ, ih (by omega)]
      have h1 : atTop n pb pt m = (pt m + pb (m + 1)) / 2 := by
        unfold atTop
        rw [if_neg (by omega)]
      have h2 : atBottom pb pt (m + 1) = (pt m + pb (m + 1)) / 2 := by
        unfold atBottom
        rw [if_neg (by omega)]
        simp
      rw [h1, h2]
      ring
  obtain ⟨m, rfl⟩ : ∃ m, n = m + 1 := ⟨n - 1, by omega⟩
  rw [part m (by omega)]
  simp [atTop]

/-- C116: a field that is continuous and linear in depth, with slope `a`, on a mesh with interfaces `z` where the layers are
`h` thick: the computed gradient is `a h / h0`. -/
theorem C116_linear (n : ℕ) (area : ℚ) (ha : area ≠ 0) (h0 z : ℕ → ℚ) (a b : ℚ) (i : ℕ) :
    weakGrad n area h0 (fun i => a * z i + b) (fun i => a * z (i + 1) + b) i = a * (z (i + 1) - z i) / h0 i := by
  have ht : atTop n (fun i => a * z i + b) (fun i => a * z (i + 1) + b) i = a * z (i + 1) + b := by
    unfold atTop
    split
    · rfl
    · ring
  have hb : atBottom (fun i => a * z i + b) (fun i => a * z (i + 1) + b) i = a * z i + b := by
    unfold atBottom
    split
    · rfl
    · have : i - 1 + 1 = i := by omega
      simp only [this]
      ring
  unfold weakGrad
  rw [ht, hb, show area * (a * z (i + 1) + b) - area * (a * z i + b) = area * (a * (z (i + 1) - z i)) by ring,
    mul_div_mul_left _ _ ha]

/-- C116: exact on the mesh of the first use. -/
theorem C116_exact (n : ℕ) (area : ℚ) (ha : area ≠ 0) (h0 z : ℕ → ℚ) (a b : ℚ) (i : ℕ) (hh : h0 i ≠ 0)
    (hz : z (i + 1) - z i = h0 i) :
    weakGrad n area h0 (fun i => a * z i + b) (fun i => a * z (i + 1) + b) i = a := by
  rw [C116_linear n area ha, hz, mul_div_assoc, div_self hh, mul_one]

/-- C116: there the shear frequency of a velocity that is linear in depth is the squared magnitude of its gradient, or the
minimum. -/
theorem C116_shear (n : ℕ) (area : ℚ) (ha : area ≠ 0) (h0 z : ℕ → ℚ) (u v b b' : ℚ) (i : ℕ) (hh : h0 i ≠ 0)
    (hz : z (i + 1) - z i = h0 i) :
    let s := shear2 (weakGrad n area h0 (fun i => u * z i + b) (fun i => u * z (i + 1) + b) i)
      (weakGrad n area h0 (fun i => v * z i + b') (fun i => v * z (i + 1) + b') i)
    (1 / 10 ^ 12 ≤ u ^ 2 + v ^ 2 → s = u ^ 2 + v ^ 2) ∧ (u ^ 2 + v ^ 2 ≤ 1 / 10 ^ 12 → s = 1 / 10 ^ 12) := by
  simp only [C116_exact n area ha h0 z _ _ i hh hz, shear2]
  refine ⟨fun h => ?_, fun h => max_eq_right (by linarith)⟩
  rw [max_eq_left (by linarith)]
  ring

/-- C116 violated: on a mesh stretched by `c` since the first use (layers `c` times as thick) the gradient of a linear field
is `c` times too large, the shear frequency squared `c ^ 2` times and the Richardson number is divided by `c`. -/
theorem C116_stretched_violated (n : ℕ) (area : ℚ) (ha : area ≠ 0) (h0 z : ℕ → ℚ) (c a u v b : ℚ) (i : ℕ)
    (hh : h0 i ≠ 0) (hz : z (i + 1) - z i = c * h0 i) (hc : 0 < c)
    (hs : 1 / 10 ^ 12 ≤ u ^ 2 + v ^ 2) (hs' : 1 / 10 ^ 12 ≤ c ^ 2 * (u ^ 2 + v ^ 2)) :
    let g (s : ℚ) := weakGrad n area h0 (fun i => s * z i + b) (fun i => s * z (i + 1) + b) i
    g a = c * a ∧ shear2 (g u) (g v) = c ^ 2 * shear2 u v ∧
      g a / shear2 (g u) (g v) = (a / shear2 u v) / c := by
  have hg : ∀ s, weakGrad n area h0 (fun i => s * z i + b) (fun i => s * z (i + 1) + b) i = c * s := by
    intro s
    rw [C116_linear n area ha, hz]
    field_simp
  have h1 : shear2 u v = u ^ 2 + v ^ 2 := by
    unfold shear2
    rw [max_eq_left (by nlinarith)]
    ring
  have h2 : shear2 (c * u) (c * v) = c ^ 2 * (u ^ 2 + v ^ 2) := by
    unfold shear2
    rw [max_eq_left (by nlinarith)]
    ring
  have hpos : 0 < u ^ 2 + v ^ 2 := lt_of_lt_of_le (by norm_num) hs
  simp only [hg, h1, h2]
  refine ⟨trivial, trivial, ?_⟩
  field_simp

/-- Two layers of 1 m stretched to 2 m. -/
example : ∃ (h0 z : ℕ → ℚ), h0 0 ≠ 0 ∧ z 1 - z 0 = 2 * h0 0 ∧
    weakGrad 2 1 h0 (fun i => 3 * z i) (fun i => 3 * z (i + 1)) 0 = 6 :=
  ⟨fun _ => 1, fun i => 2 * i, by norm_num, by norm_num, by norm_num [weakGrad, atTop, atBottom]⟩

end Verif.Start
