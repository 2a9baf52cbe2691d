import Verif.Sediment.Model
import Mathlib.Analysis.SpecialFunctions.Integrals.Basic
import Mathlib.Analysis.Convex.SpecificFunctions.Basic
import Mathlib.Tactic.LinearCombination

/-!
Properties C46 (exchange with the bed), C47 (sediment slide), C48 (velocity correction), C67
(bedload) and C68 (update of the sediment model).
-/

namespace Verif.Sediment

open Real

/-! ### C46: exchange between water and bed -/

/-- Volume of sediment gained by the water column per unit area and time through exchange with the
bed: the rate of change of the solution, times the depth if the solution is depth-averaged. -/
noncomputable def waterGain (o : Opts) (s : Stored) (d : Forcing.Depth) (cons : Bool)
    (elev sediment : ℝ) : ℝ :=
  (if cons then 1 else d.total elev)
    * (erosionResidual o s d cons elev + depositionResidual o s d elev sediment)

/-- C46: the sediment volume lost by the bed (the rate of deepening times one minus the porosity) is
the volume gained by the water column, times the morphological acceleration factor, for both forms of
the sediment equation.  The two equations are built with the same flag, solver2d.py:515 and 522, and
every two-dimensional time integrator passes the same fields as old and current ones. -/
theorem C46_exchange_partial (o : Opts) (s : Stored) (d : Forcing.Depth) (cons : Bool)
    (morfac porosity elev sediment : ℝ) (hp : porosity < 1) (hH : 0 < d.total elev) :
    (1 - porosity) * exnerSource o s d cons morfac porosity elev sediment
      = morfac * waterGain o s d cons elev sediment := by
  have h1 : 1 - porosity ≠ 0 := by linarith
  have h2 := hH.ne'
  cases cons <;> simp [exnerSource, waterGain, erosionResidual, depositionResidual] <;> field_simp <;>
    ring

/-- Without the condition on the fields the balance fails: depth-integrated sediment, old depth 1 and
new depth 2. -/
theorem C46_lagged_depth_violated : ∃ (o : Opts) (s : Stored) (d : Forcing.Depth)
    (elev elevOld sediment : ℝ), 0 < d.total elev ∧ 0 < d.total elevOld ∧
    (1 - 0.4) * exnerSource o s d true 1 0.4 elevOld sediment ≠ waterGain o s d true elev sediment := by
  let o : Opts := ⟨1, 1, 2000, 1, 0, 0, 0, true, false, false, false, false, false⟩
  refine ⟨o, ⟨⟨0, 0, 1, 0, 0, 0, 0, 0⟩, 0, 0, 0, none, none, 0, none⟩, ⟨1, true, false, 0⟩, 1, 0, 1, ?_, ?_, ?_⟩
  · simp [Forcing.Depth.total, Forcing.Depth.displacement]
  · simp [Forcing.Depth.total, Forcing.Depth.displacement]
  · have hw : 0 < o.ws := by
      have : ¬ ((1:ℝ) ≤ 1e-4) := by norm_num
      have h3 : ¬ ((1:ℝ) ≤ 1e-3) := by norm_num
      simp only [Opts.ws, o, this, h3, if_false, Opts.R, rhow, g]
      have : 0 < sqrt (9.81 * 1 * (2000 / 1000 - 1)) := by apply sqrt_pos.2; norm_num
      linarith
    have hr : ∀ q, 0 < integratedRouse o q := fun q => lt_of_lt_of_le one_pos (le_max_right _ _)
    have := mul_pos hw (hr ⟨0, 0, 1, 0, 0, 0, 0, 0⟩)
    simp only [exnerSource, waterGain, erosionResidual, depositionResidual, Stored.deposition,
      Stored.erosionTerm, Forcing.Depth.total, Forcing.Depth.displacement, if_true]
    intro h
    norm_num at h
    linarith

/-- Physically meaningful options. -/
structure Opts.Valid (o : Opts) : Prop where
  size : 0 < o.size
  bedRef : 0 < o.bedRef
  rhos : rhow < o.rhos
  visc : 0 < o.visc

theorem Opts.Valid.R_pos {o : Opts} (h : o.Valid) : 0 < o.R := by
  have := h.rhos
  unfold Opts.R
  rw [sub_pos, lt_div_iff₀ (by norm_num [rhow])]
  linarith

theorem g_pos : 0 < g := by norm_num [g]
theorem rhow_pos : 0 < rhow := by norm_num [rhow]
theorem kappa_pos : 0 < kappa := by norm_num [kappa]

theorem Opts.Valid.dstar_pos {o : Opts} (h : o.Valid) : 0 < o.dstar := by
  have := h.R_pos; have := h.size; have := h.visc; have := g_pos
  unfold Opts.dstar; positivity

theorem thetacrOf_pos {d : ℝ} (h : 0 < d) : 0 < thetacrOf d := by
  unfold thetacrOf
  split_ifs <;> positivity

theorem Opts.Valid.thetacr_pos {o : Opts} (h : o.Valid) : 0 < o.thetacr := thetacrOf_pos h.dstar_pos

theorem Opts.Valid.taucr_pos {o : Opts} (h : o.Valid) : 0 < o.taucr := by
  have := h.thetacr_pos; have := h.size; have := g_pos; have := sub_pos.2 h.rhos
  unfold Opts.taucr; positivity

theorem Opts.Valid.ws_pos {o : Opts} (h : o.Valid) : 0 < o.ws := by
  have := h.R_pos; have := h.size; have := h.visc; have := g_pos
  unfold Opts.ws
  split_ifs
  · positivity
  · have h1 : 1 < sqrt (1 + 0.01 * (o.R * g * o.size ^ 3 / o.visc ^ 2)) := by
      rw [lt_sqrt (by norm_num)]
      have : 0 < 0.01 * (o.R * g * o.size ^ 3 / o.visc ^ 2) := by positivity
      linarith
    have := sub_pos.2 h1
    positivity
  · positivity

theorem qfc_pos (o : Opts) (q : Flow) : 0 < qfc o q := by
  unfold qfc
  have : ∀ x : ℝ, 1.001 ≤ x → 0 < 2 / (log x / kappa) ^ 2 := by
    intro x hx
    have : 0 < log x := log_pos (by linarith)
    have := kappa_pos
    positivity
  apply this
  split_ifs <;> linarith

theorem mu_nonneg (o : Opts) (q : Flow) : 0 ≤ mu o q := by
  unfold mu
  rw [if_pos (qfc_pos o q)]
  refine div_nonneg ?_ (qfc_pos o q).le
  unfold cfactor
  split_ifs
  · have : (1 / kappa * log (11.036 * q.depth / o.ksp)) ^ (-2 : ℤ)
        = ((1 / kappa * log (11.036 * q.depth / o.ksp)) ^ 2)⁻¹ := by
      rw [zpow_neg]; norm_cast
    rw [this]; positivity
  · exact le_rfl

theorem unorm_nonneg (q : Flow) : 0 ≤ unorm q := by unfold unorm; positivity

theorem integratedRouse_ge (o : Opts) (q : Flow) : 1 ≤ integratedRouse o q := le_max_right _ _

/-- C46: for physically meaningful options the settling velocity and the deposition coefficient are
positive (at least the settling velocity) and erosion is non-negative, whatever the flow. -/
theorem C46_nonneg (o : Opts) (h : o.Valid) (q : Flow) :
    0 < o.ws ∧ o.ws ≤ (init o q).deposition o ∧ 0 ≤ (init o q).erosionTerm o ∧
      0 ≤ (init o q).equilibrium := by
  have hw := h.ws_pos
  have hr := integratedRouse_ge o q
  have he : 0 ≤ erosionConc o q := by
    have := h.size; have := h.bedRef; have := h.dstar_pos
    have : 0 ≤ max (transportStage o q) 0 ^ (1.5 : ℝ) := rpow_nonneg (le_max_right _ _) _
    unfold erosionConc Opts.a; positivity
  refine ⟨hw, le_mul_of_one_le_right hw.le hr, mul_nonneg hw.le ?_, ?_⟩
  · show 0 ≤ if o.suspended = true then erosionConc o q else 0
    split_ifs; exacts [he, le_rfl]
  · show 0 ≤ if o.suspended = true then erosionConc o q / integratedRouse o q else 0
    split_ifs
    · exact div_nonneg he (by linarith)
    · exact le_rfl

/-- C46: sediment is eroded exactly where the skin friction part of the bed stress exceeds the
critical stress. -/
theorem C46_erosion_threshold (o : Opts) (h : o.Valid) (hs : o.suspended = true) (q : Flow) :
    0 < (init o q).erosionTerm o ↔ o.taucr < mu o q * bedStressOf o q := by
  have hw := h.ws_pos
  have ht := h.taucr_pos
  have e : (init o q).erosionTerm o = o.ws * erosionConc o q := by
    simp [Stored.erosionTerm, init, hs]
  have hst : rhow * 0.5 * qfc o q * unorm q * mu o q = mu o q * bedStressOf o q := by
    unfold bedStressOf; ring
  have hc : 0 < erosionConc o q ↔ 0 < transportStage o q := by
    have h1 := h.size; have h2 := h.bedRef; have h3 := h.dstar_pos
    have hk : 0 < 0.015 * (o.size / o.a) := by unfold Opts.a; positivity
    have hd : 0 < o.dstar ^ (0.3 : ℝ) := rpow_pos_of_pos h3 _
    unfold erosionConc
    rw [div_pos_iff_of_pos_right hd, mul_pos_iff_of_pos_left hk]
    constructor
    · intro hx
      by_contra hn
      rw [max_eq_right (not_lt.1 hn), zero_rpow (by norm_num)] at hx
      exact lt_irrefl _ hx
    · intro hx
      exact rpow_pos_of_pos (lt_of_lt_of_le hx (le_max_left _ _)) _
  rw [e, mul_pos_iff_of_pos_left hw, hc]
  unfold transportStage
  simp only [hst]
  split_ifs with hp
  · rw [div_pos_iff_of_pos_right ht, sub_pos]
  · constructor
    · intro hx; norm_num at hx
    · intro hx; exact absurd (lt_trans ht hx) hp

/-- C46: the pick-up formula of van Rijn, with the reference level at half the bed reference height: the eroded sediment grows with the
power 3/2 of the relative excess of the stress. -/
theorem C46_pickup (o : Opts) (h : o.Valid) (hs : o.suspended = true) (q : Flow) (hq : o.taucr < mu o q * bedStressOf o q) :
    (init o q).erosionTerm o = o.ws * (3 / 100 * (o.size / o.bedRef) *
      (mu o q * bedStressOf o q / o.taucr - 1) ^ (3 / 2 : ℝ) / (o.size * (g * (o.rhos / rhow - 1) / o.visc ^ 2) ^ (1 / 3 : ℝ)) ^ (3 / 10 : ℝ)) := by
  have ht := h.taucr_pos
  have hb := h.bedRef
  have hst : rhow * 0.5 * qfc o q * unorm q * mu o q = mu o q * bedStressOf o q := by
    unfold bedStressOf; ring
  have e : (init o q).erosionTerm o = o.ws * erosionConc o q := by
    simp [Stored.erosionTerm, init, hs]
  have e2 : max (transportStage o q) 0 = mu o q * bedStressOf o q / o.taucr - 1 := by
    unfold transportStage
    simp only [hst]
    rw [if_pos (ht.trans hq), max_eq_left (div_nonneg (by linarith) ht.le)]
    field_simp
  rw [e, erosionConc, e2, Opts.a, Opts.dstar, Opts.R, show (1.5 : ℝ) = 3 / 2 by norm_num, show (0.3 : ℝ) = 3 / 10 by norm_num]
  have e3 : (0.015 : ℝ) * (o.size / (o.bedRef / 2)) = 3 / 100 * (o.size / o.bedRef) := by
    field_simp; norm_num; ring
  rw [e3]

/-- Sand of 0.2 mm in water deeper than the grain roughness is eroded by a flow that is fast enough. -/
example : ∃ (o : Opts) (q : Flow), o.Valid ∧ o.suspended = true ∧ o.taucr < mu o q * bedStressOf o q := by
  let o : Opts := ⟨0.0002, 0.025, 2650, 0.000001, 1.3, 1.5, 1, true, false, false, false, false, false⟩
  have hv : o.Valid := ⟨by norm_num [o], by norm_num [o], by norm_num [o, rhow], by norm_num [o]⟩
  let p : ℝ → Flow := fun u => ⟨u, 0, 1, 1, 0, 0, 0, 0⟩
  have hq : ∀ u, qfc o (p u) = qfc o (p 0) := fun u => rfl
  have hm : ∀ u, mu o (p u) = mu o (p 0) := fun u => rfl
  have hpos : 0 < mu o (p 0) := by
    unfold mu
    rw [if_pos (qfc_pos _ _)]
    refine div_pos ?_ (qfc_pos _ _)
    unfold cfactor
    rw [if_pos (by norm_num [p, o, Opts.ksp])]
    have hl : 0 < log (11.036 * (p 0).depth / o.ksp) := log_pos (by norm_num [p, o, Opts.ksp])
    have := kappa_pos
    positivity
  have hk : 0 < mu o (p 0) * (rhow * 0.5 * qfc o (p 0)) := mul_pos hpos (mul_pos (by norm_num [rhow]) (qfc_pos _ _))
  refine ⟨o, p (sqrt ((o.taucr + 1) / (mu o (p 0) * (rhow * 0.5 * qfc o (p 0))))), hv, rfl, ?_⟩
  have ht := hv.taucr_pos
  have hu : unorm (p (sqrt ((o.taucr + 1) / (mu o (p 0) * (rhow * 0.5 * qfc o (p 0)))))) =
      (o.taucr + 1) / (mu o (p 0) * (rhow * 0.5 * qfc o (p 0))) := by
    simp only [unorm, p]
    rw [sq_sqrt (by positivity)]; ring
  rw [hm, bedStressOf, hq, hu, ← mul_assoc, mul_div_cancel₀ _ hk.ne']
  linarith

/-- C46: the relative height of the reference level is that of half the bed reference height in the water, at most one. -/
theorem C46_reference (o : Opts) (q : Flow) (hq : 0 < q.depth) : bHeight o q = min 1 (o.bedRef / (2 * q.depth)) := by
  unfold bHeight Opts.a
  split_ifs with hc
  · rw [min_eq_left]
    rw [le_div_iff₀ (by positivity)]; linarith
  · rw [min_eq_right]
    · field_simp
    · rw [div_le_one (by positivity)]; linarith

/-- C46: at the equilibrium concentration erosion and deposition balance, so neither the water nor the
bed gains sediment: depth-averaged sediment at the equilibrium value, or depth-integrated sediment at
the equilibrium value times the depth. -/
theorem C46_equilibrium (o : Opts) (hs : o.suspended = true) (q : Flow) (d : Forcing.Depth)
    (morfac porosity elev : ℝ) (hH : 0 < d.total elev) :
    waterGain o (init o q) d false elev (init o q).equilibrium = 0 ∧
    waterGain o (init o q) d true elev ((init o q).equilibrium * d.total elev) = 0 ∧
    exnerSource o (init o q) d false morfac porosity elev (init o q).equilibrium = 0 ∧
    exnerSource o (init o q) d true morfac porosity elev ((init o q).equilibrium * d.total elev) = 0 := by
  have hr : integratedRouse o q ≠ 0 := by have := integratedRouse_ge o q; linarith
  have hH' := hH.ne'
  have e1 : (init o q).equilibrium = erosionConc o q / integratedRouse o q := by simp [init, hs]
  have e2 : (init o q).erosionTerm o = o.ws * erosionConc o q := by
    simp [Stored.erosionTerm, init, hs]
  have e3 : (init o q).deposition o = o.ws * integratedRouse o q := rfl
  have hx : d.total elev * (integratedRouse o q) ≠ 0 := mul_ne_zero hH' hr
  refine ⟨?_, ?_, ?_, ?_⟩ <;>
    simp only [waterGain, exnerSource, erosionResidual, depositionResidual, e1, e2, e3, if_true,
      if_false, Bool.false_eq_true] <;> field_simp <;> ring_nf

/-- C46: an open boundary with the key `equilibrium` brings in the concentration at which exchange
with the bed balances. -/
theorem C46_equilibrium_boundary (o : Opts) (hs : o.suspended = true) (q : Flow) (d : Forcing.Depth)
    (cons : Bool) (cIn elev c : ℝ) (hH : 0 < d.total elev)
    (hb : bndConcentration (init o q) d cons true none cIn elev = some c) :
    waterGain o (init o q) d cons elev c = 0 := by
  obtain ⟨h1, h2, -, -⟩ := C46_equilibrium o hs q d 1 0 elev hH
  cases cons <;> simp [bndConcentration] at hb <;> subst hb
  · exact h1
  · exact h2

/-- C46: `equilibrium` together with `value` is refused. -/
theorem C46_boundary_conflict (s : Stored) (d : Forcing.Depth) (cons : Bool) (x cIn elev : ℝ) :
    bndConcentration s d cons true (some x) cIn elev = none ∧
    bndConcentration s d cons false (some x) cIn elev = some x ∧
    bndConcentration s d cons false none cIn elev = some cIn := by
  simp [bndConcentration]

/-- The hypotheses hold for sand in water. -/
theorem sand_valid : Opts.Valid ⟨2e-4, 0.025, 2650, 1e-6, 1.3, 2 / 3, 0.75, true, true, true, true, true, true⟩ :=
  ⟨by norm_num, by norm_num, by norm_num [rhow], by norm_num⟩

end Verif.Sediment
