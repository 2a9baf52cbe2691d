import Verif.Sediment.Props2

/-!
Properties C67 (bedload transport) and C68 (update of the sediment model).
-/

namespace Verif.Sediment

open Real

/-! ### C67: bedload -/

theorem mpm_nonneg (o : Opts) (q : Flow) : 0 ≤ mpm o q := by
  unfold mpm
  refine mul_nonneg ?_ (sqrt_nonneg _)
  split_ifs with h
  · exact le_rfl
  · exact mul_nonneg (by norm_num) (rpow_nonneg (by linarith [not_lt.1 h]) _)

theorem mpm_pos_iff (o : Opts) (h : o.Valid) (q : Flow) :
    0 < mpm o q ↔ o.taucr < mu o q * bedStressOf o q := by
  have hR := h.R_pos; have hs := h.size; have hg := g_pos
  have hd : 0 < (o.rhos - rhow) * g * o.size := mul_pos (mul_pos (sub_pos.2 h.rhos) hg) hs
  have hq : 0 < sqrt (g * o.R * o.size ^ 3) := sqrt_pos.2 (by positivity)
  have e : mu o q * (rhow * 0.5 * qfc o q * unorm q) / ((o.rhos - rhow) * g * o.size)
      = mu o q * bedStressOf o q / ((o.rhos - rhow) * g * o.size) := rfl
  have et : o.taucr = (o.rhos - rhow) * g * o.size * o.thetacr := rfl
  unfold mpm
  simp only [e]
  rw [mul_pos_iff_of_pos_right hq, et]
  constructor
  · intro hx
    split_ifs at hx with hc
    · exact absurd hx (lt_irrefl _)
    · have h1 := not_lt.1 hc
      rcases h1.eq_or_lt with h2 | h2
      · rw [h2, sub_self, zero_rpow (by norm_num)] at hx; norm_num at hx
      · rw [lt_div_iff₀ hd] at h2; linarith
  · intro hx
    have h2 : o.thetacr < mu o q * bedStressOf o q / ((o.rhos - rhow) * g * o.size) := by
      rw [lt_div_iff₀ hd]; linarith
    rw [if_neg (not_lt.2 h2.le)]
    exact mul_pos (by norm_num) (rpow_pos_of_pos (sub_pos.2 h2) _)

/-- The sediment model of a flow that is not at rest. -/
theorem init_direction (o : Opts) (hb : o.bedload = true) (q : Flow) (hu : unorm q ≠ 0) :
    (init o q).calfa = some (q.u / sqrt (unorm q)) ∧ (init o q).salfa = some (q.v / sqrt (unorm q)) ∧
    (q.u / sqrt (unorm q)) ^ 2 + (q.v / sqrt (unorm q)) ^ 2 = 1 := by
  refine ⟨by simp [init, hb, direction, hu], by simp [init, hb, direction, hu], ?_⟩
  rw [div_pow, div_pow, sq_sqrt (unorm_nonneg q), ← add_div]
  exact div_self hu

/-- C67: no bedload where the skin friction part of the bed stress does not exceed the critical
stress, for every combination of corrections. -/
theorem C67_threshold (o : Opts) (h : o.Valid) (hb : o.bedload = true) (q : Flow)
    (hu : unorm q ≠ 0) (bx by' : ℝ) (ht : mu o q * bedStressOf o q ≤ o.taucr) :
    bedload o (init o q) bx by' = some (0, 0) := by
  obtain ⟨h1, h2, -⟩ := init_direction o hb q hu
  have hm : mpm o q = 0 :=
    le_antisymm (not_lt.1 fun hx => absurd ((mpm_pos_iff o h q).1 hx) (not_lt.2 ht)) (mpm_nonneg o q)
  have hc : (init o q).cur = q := rfl
  unfold bedload
  rw [h1, h2]
  simp [hc, hm]

/-- C67: without corrections the flux has the direction of the flow and the magnitude of the
Meyer-Peter-Mueller formula, positive above the critical stress. -/
theorem C67_flow_direction (o : Opts) (h : o.Valid) (hb : o.bedload = true) (q : Flow)
    (hu : unorm q ≠ 0) (bx by' : ℝ) (ha : o.angleCorr = false) (hm : o.slopeMag = false)
    (hs : o.secondary = false) :
    ∃ m, 0 ≤ m ∧ (0 < m ↔ o.taucr < mu o q * bedStressOf o q) ∧
      bedload o (init o q) bx by' = some (m * (q.u / sqrt (unorm q)), m * (q.v / sqrt (unorm q))) := by
  obtain ⟨h1, h2, -⟩ := init_direction o hb q hu
  refine ⟨mpm o q, mpm_nonneg o q, mpm_pos_iff o h q, ?_⟩
  have hc : (init o q).cur = q := rfl
  unfold bedload
  rw [h1, h2]
  simp [hs, modAngle, ha, slopecoef, hm, hc]

/-- C67: the slope magnitude correction multiplies the flux by one plus `beta` times the bed gradient
along the flow (the bed is positive downwards, so the flux grows down-slope). -/
theorem C67_slope (o : Opts) (hb : o.bedload = true) (q : Flow) (hu : unorm q ≠ 0) (bx by' : ℝ)
    (hs : o.secondary = false) :
    bedload { o with slopeMag := true } (init o q) bx by'
      = (bedload { o with slopeMag := false } (init o q) bx by').map fun f =>
        ((1 + o.beta * ((bx * q.u + by' * q.v) / sqrt (unorm q))) * f.1,
         (1 + o.beta * ((bx * q.u + by' * q.v) / sqrt (unorm q))) * f.2) := by
  obtain ⟨h1, h2, -⟩ := init_direction o hb q hu
  have hmpm : ∀ x, mpm { o with slopeMag := x } = mpm o := fun x => rfl
  have hmod : ∀ x, modAngle { o with slopeMag := x } = modAngle o := fun x => rfl
  have hc : (init o q).cur = q := rfl
  have hsec : ¬ (o.secondary = true) := by simp [hs]
  unfold bedload
  rw [h1, h2]
  simp only [if_neg hsec, Option.map_some, Option.some.injEq, Prod.mk.injEq, hmod,
    hmpm, slopecoef, if_true, hc, Bool.false_eq_true, if_false]
  have : bx * (q.u / sqrt (unorm q)) + by' * (q.v / sqrt (unorm q))
      = (bx * q.u + by' * q.v) / sqrt (unorm q) := by ring
  rw [this]
  constructor <;> ring

/-- C67: the angle correction (bed not changed since the last update) keeps the magnitude and turns
the flux towards the down-slope side: its component across the flow has the sign of the bed gradient
across the flow. -/
theorem C67_angle (o : Opts) (hb : o.bedload = true) (q : Flow) (hu : unorm q ≠ 0)
    (ha : o.angleCorr = true) (hm : o.slopeMag = false) (hs : o.secondary = false)
    (hc : 1e-10 < sqrt ((q.v / sqrt (unorm q) + tt1 o (init o q).stress * q.dbdy) ^ 2
      + (q.u / sqrt (unorm q) + tt1 o (init o q).stress * q.dbdx) ^ 2)) :
    ∃ f, bedload o (init o q) q.dbdx q.dbdy = some f ∧ f.1 ^ 2 + f.2 ^ 2 = mpm o q ^ 2 ∧
      ∃ k, 0 ≤ k ∧ (0 < mpm o q → 0 < o.surbeta2 ^ 2 * (o.rhos - rhow) * o.size → 0 < k) ∧
        q.u * f.2 - q.v * f.1 = k * (q.u * q.dbdy - q.v * q.dbdx) := by
  obtain ⟨h1, h2, h3⟩ := init_direction o hb q hu
  have hcur : (init o q).cur = q := rfl
  set c := q.u / sqrt (unorm q) with hcdef
  set sn := q.v / sqrt (unorm q) with hsdef
  set T := tt1 o (init o q).stress with hT
  set N := sqrt ((sn + T * q.dbdy) ^ 2 + (c + T * q.dbdx) ^ 2) with hN
  have hN0 : 0 < N := lt_trans (by norm_num) hc
  have hN2 : N ^ 2 = (sn + T * q.dbdy) ^ 2 + (c + T * q.dbdx) ^ 2 := sq_sqrt (by positivity)
  have hb' : bedload o (init o q) q.dbdx q.dbdy
      = some (mpm o q * ((c + T * q.dbdx) / N), mpm o q * ((sn + T * q.dbdy) / N)) := by
    unfold bedload
    rw [h1, h2]
    simp only [hs, Bool.false_eq_true, if_false, modAngle, ha, if_true, slopecoef, hm, hcur, ← hT, ← hN,
      if_pos hc, one_mul]
  refine ⟨_, hb', ?_, ?_⟩
  · simp only
    rw [mul_pow, mul_pow, div_pow, div_pow, ← mul_add, ← add_div, hN2,
      add_comm ((c + T * q.dbdx) ^ 2), div_self (by rw [← hN2]; positivity), mul_one]
  · have hT0 : 0 ≤ T := by
      rw [hT]; unfold tt1; simp only; split_ifs <;> exact sqrt_nonneg _
    refine ⟨mpm o q * T / N, div_nonneg (mul_nonneg (mpm_nonneg o q) hT0) hN0.le, ?_, ?_⟩
    · intro hp hk
      have : 0 < T := by
        rw [hT]; unfold tt1
        have hk' : 0 < (o.rhos - rhow) * g * o.size * o.surbeta2 ^ 2 := by
          have := mul_pos hk g_pos
          nlinarith
        simp only
        split_ifs with hst
        · exact sqrt_pos.2 (div_pos hk' (by linarith))
        · exact sqrt_pos.2 (div_pos hk' (by norm_num))
      positivity
    · simp only
      have hz : q.u * sn - q.v * c = 0 := by rw [hcdef, hsdef]; ring
      have : q.u * (mpm o q * ((sn + T * q.dbdy) / N)) - q.v * (mpm o q * ((c + T * q.dbdx) / N))
          = mpm o q / N * ((q.u * sn - q.v * c) + T * (q.u * q.dbdy - q.v * q.dbdx)) := by ring
      rw [this, hz]; ring

/-- A flat bed meets the hypotheses. -/
example (o : Opts) : let q : Flow := ⟨1, 0, 1, 1, 0, 0, 0, 0⟩
    unorm q ≠ 0 ∧ 1e-10 < sqrt ((q.v / sqrt (unorm q) + tt1 o (init o q).stress * q.dbdy) ^ 2
      + (q.u / sqrt (unorm q) + tt1 o (init o q).stress * q.dbdx) ^ 2) := by
  norm_num [unorm]

/-- C67: with the secondary current the flux is the Meyer-Peter-Mueller magnitude times the corrected
stress relative to the bed stress. -/
theorem C67_secondary_value (o : Opts) (s : Stored) (c sn bx by' : ℝ) (h1 : s.calfa = some c)
    (h2 : s.salfa = some sn) (hs : o.secondary = true) :
    let t := secondary o s c sn bx by'
    t ≠ (0, 0) →
    bedload o s bx by' = some (mpm o s.cur * (t.1 / s.bedStress), mpm o s.cur * (t.2 / s.bedStress)) := by
  intro t ht
  have hpos : 0 < t.1 ^ 2 + t.2 ^ 2 := by
    rcases (by positivity : 0 ≤ t.1 ^ 2 + t.2 ^ 2).eq_or_lt with h | h
    · exfalso; apply ht
      have a := pow_eq_zero_iff (n := 2) (by norm_num) |>.1 (by nlinarith [sq_nonneg t.1, sq_nonneg t.2] : t.1 ^ 2 = 0)
      have b := pow_eq_zero_iff (n := 2) (by norm_num) |>.1 (by nlinarith [sq_nonneg t.1, sq_nonneg t.2] : t.2 ^ 2 = 0)
      exact Prod.ext a b
    · exact h
  have hq : sqrt (t.1 ^ 2 + t.2 ^ 2) ≠ 0 := (sqrt_pos.2 hpos).ne'
  unfold bedload
  rw [h1, h2]
  simp only [hs, if_true]
  show some (sqrt (t.1 ^ 2 + t.2 ^ 2) / s.bedStress * mpm o s.cur * (t.1 / sqrt (t.1 ^ 2 + t.2 ^ 2)),
    sqrt (t.1 ^ 2 + t.2 ^ 2) / s.bedStress * mpm o s.cur * (t.2 / sqrt (t.1 ^ 2 + t.2 ^ 2))) = _
  rw [Option.some.injEq, Prod.mk.injEq]
  constructor <;> field_simp

/-- C67: where the free surface does not slope across the flow, the secondary current changes
nothing. -/
theorem C67_secondary_neutral (o : Opts) (hb : o.bedload = true) (q : Flow) (hu : unorm q ≠ 0)
    (bx by' : ℝ) (hflat : q.u * (q.dddy - by') = q.v * (q.dddx - bx))
    (hk : slopecoef o (q.u / sqrt (unorm q)) (q.v / sqrt (unorm q)) bx by' ≠ 0)
    (hm : modAngle o (init o q) (q.u / sqrt (unorm q)) (q.v / sqrt (unorm q)) bx by' ≠ (0, 0)) :
    bedload { o with secondary := true } (init o q) bx by'
      = bedload { o with secondary := false } (init o q) bx by' := by
  obtain ⟨h1, h2, h3⟩ := init_direction o hb q hu
  have hcur : (init o q).cur = q := rfl
  have hbs : (init o q).bedStress ≠ 0 := by
    show bedStressOf o q ≠ 0
    have := qfc_pos o q
    have : 0 < unorm q := lt_of_le_of_ne (unorm_nonneg q) (Ne.symm hu)
    have := rhow_pos
    unfold bedStressOf; positivity
  have hsec : secondary { o with secondary := true } (init o q) (q.u / sqrt (unorm q))
      (q.v / sqrt (unorm q)) bx by'
      = ((init o q).bedStress * slopecoef o (q.u / sqrt (unorm q)) (q.v / sqrt (unorm q)) bx by'
          * (modAngle o (init o q) (q.u / sqrt (unorm q)) (q.v / sqrt (unorm q)) bx by').1,
        (init o q).bedStress * slopecoef o (q.u / sqrt (unorm q)) (q.v / sqrt (unorm q)) bx by'
          * (modAngle o (init o q) (q.u / sqrt (unorm q)) (q.v / sqrt (unorm q)) bx by').2) := by
    unfold secondary
    simp only [hcur]
    rw [show q.u * (q.dddy - by') - q.v * (q.dddx - bx) = 0 by linarith]
    simp only [mul_zero, add_zero, sub_zero]
    rfl
  rw [C67_secondary_value _ _ _ _ bx by' h1 h2 rfl, hsec]
  · unfold bedload
    rw [h1, h2]
    simp only [Bool.false_eq_true, if_false, hcur]
    rw [Option.some.injEq, Prod.mk.injEq]
    show mpm o q * _ = slopecoef o _ _ bx by' * mpm o q * (modAngle o _ _ _ bx by').1 ∧
      mpm o q * _ = slopecoef o _ _ bx by' * mpm o q * (modAngle o _ _ _ bx by').2
    constructor <;> field_simp
  · rw [hsec]
    intro h
    rw [Prod.mk.injEq] at h
    have hz : ∀ x, (init o q).bedStress * slopecoef o (q.u / sqrt (unorm q)) (q.v / sqrt (unorm q)) bx by' * x
        = 0 → x = 0 := by
      intro x hx
      rcases mul_eq_zero.1 hx with h | h
      · rcases mul_eq_zero.1 h with h | h
        · exact absurd h hbs
        · exact absurd h hk
      · exact h
    exact hm (Prod.ext (hz _ h.1) (hz _ h.2))

/-- C67: otherwise (no angle correction) the secondary current turns the flux to the side where the
free surface is lower (the inner side of a bend). -/
theorem C67_secondary_side (o : Opts) (hb : o.bedload = true) (q : Flow) (hu : unorm q ≠ 0)
    (bx by' : ℝ) (hs : o.secondary = true) (ha : o.angleCorr = false) (hd : 0 < q.depth)
    (hal : 0 < o.alphaSecc) (hside : q.u * (q.dddy - by') - q.v * (q.dddx - bx) ≠ 0) :
    ∃ f, bedload o (init o q) bx by' = some f ∧ ∃ k, 0 ≤ k ∧ (0 < mpm o q → 0 < k) ∧
      q.u * f.2 - q.v * f.1 = -k * (q.u * (q.dddy - by') - q.v * (q.dddx - bx)) := by
  obtain ⟨h1, h2, h3⟩ := init_direction o hb q hu
  have hcur : (init o q).cur = q := rfl
  have hup : 0 < unorm q := lt_of_le_of_ne (unorm_nonneg q) (Ne.symm hu)
  have hbs : 0 < (init o q).bedStress := by
    show 0 < bedStressOf o q
    have := qfc_pos o q
    have := rhow_pos
    unfold bedStressOf; positivity
  set W := 7 * g * rhow * q.depth * qfc o q / (2 * o.alphaSecc * (q.u ^ 2 + q.v ^ 2)) with hW
  have hWpos : 0 < W := by
    have h1 : 0 < q.u ^ 2 + q.v ^ 2 := hup
    have := qfc_pos o q; have := rhow_pos; have := g_pos
    rw [hW]; positivity
  set D := q.u * (q.dddy - by') - q.v * (q.dddx - bx) with hD
  set t := secondary o (init o q) (q.u / sqrt (unorm q)) (q.v / sqrt (unorm q)) bx by' with ht
  have hcross : q.u * t.2 - q.v * t.1 = -(unorm q * W * D) := by
    rw [ht]; unfold secondary
    simp only [hcur, modAngle, ha, Bool.false_eq_true, if_false, ← hW, ← hD]
    unfold unorm
    ring
  have hne : t ≠ (0, 0) := by
    intro h
    rw [h] at hcross
    have : unorm q * W * D ≠ 0 := mul_ne_zero (mul_ne_zero hu hWpos.ne') hside
    apply this
    simp only [mul_zero, sub_zero] at hcross
    linarith
  refine ⟨_, C67_secondary_value o _ _ _ bx by' h1 h2 hs hne,
    mpm o q * (unorm q * W / (init o q).bedStress), mul_nonneg (mpm_nonneg o q) (by positivity),
    fun hp => by positivity, ?_⟩
  simp only [hcur, ← ht]
  have : q.u * (mpm o q * (t.2 / (init o q).bedStress)) - q.v * (mpm o q * (t.1 / (init o q).bedStress))
      = mpm o q / (init o q).bedStress * (q.u * t.2 - q.v * t.1) := by ring
  rw [this, hcross]
  ring

/-- C67 is violated where the flow is at rest: the direction is 0/0, so the flux is not a number
instead of zero. -/
theorem C67_rest_violated (o : Opts) (q : Flow) (hu : q.u = 0) (hv : q.v = 0) (bx by' : ℝ) :
    bedload o (init o q) bx by' = none := by
  have : unorm q = 0 := by simp [unorm, hu, hv]
  have h1 : (init o q).calfa = none := by simp [init, direction, this]
  unfold bedload
  rw [h1]

/-- C67: a boundary is treated as closed exactly if a zero velocity or a zero value under a key other
than `elev` is prescribed there (`uv` vector valued, other values scalar). -/
theorem C67_closed (l : List (String × BndVal))
    (hl : ∀ p ∈ l, p.1 ≠ "elev" → (p.1 = "uv" ↔ ∃ c, p.2 = .vector c)) :
    ∃ b, noContr l = some b ∧ (b = true ↔ ∃ p ∈ l, p.1 ≠ "elev" ∧
      (p.2 = .scalar 0 ∨ ∃ c, p.2 = .vector c ∧ ∀ x ∈ c, x = 0)) := by
  classical
  induction l with
  | nil => exact ⟨false, rfl, by simp⟩
  | cons a l ih =>
    obtain ⟨b, h1, h2⟩ := ih fun p hp => hl p (List.mem_cons_of_mem _ hp)
    obtain ⟨k, v⟩ := a
    by_cases he : k = "elev"
    · refine ⟨b, by simp [noContr, he, h1], ?_⟩
      rw [h2]
      simp [he]
    · have hk := hl (k, v) (by simp) he
      by_cases hu : k = "uv"
      · obtain ⟨c, hc⟩ := hk.1 hu
        simp only at hc
        subst hc
        refine ⟨decide (∀ x ∈ c, x = 0) || b, by simp [noContr, hu, h1], ?_⟩
        rw [Bool.or_eq_true, decide_eq_true_iff, h2]
        simp only [List.mem_cons, exists_eq_or_imp]
        refine or_congr ?_ Iff.rfl
        simp [hu]
      · cases v with
        | vector c => exact absurd (hk.2 ⟨c, rfl⟩) hu
        | scalar x =>
          refine ⟨decide (x = 0) || b, by simp [noContr, hu, h1, he], ?_⟩
          rw [Bool.or_eq_true, decide_eq_true_iff, h2]
          simp only [List.mem_cons, exists_eq_or_imp]
          refine or_congr ?_ Iff.rfl
          simp [he]

/-- Net bedload outflow through the facets of a boundary (weights, normals and fluxes). -/
def outflow (l : List (ℝ × ℝ × (ℝ × ℝ) × (ℝ × ℝ))) : ℝ :=
  (l.map fun p => p.1 * (p.2.2.1.1 * p.2.2.2.1 + p.2.2.1.2 * p.2.2.2.2)).sum

theorem sum_cell_zero (fac : ℝ) (cell : List (ℝ × (ℝ × ℝ) × (ℝ × ℝ)))
    (h : ∀ p ∈ cell, p.2.1 = (0, 0)) :
    (cell.map fun p => p.1 * (fac * p.2.2.1 * p.2.1.1 + fac * p.2.2.2 * p.2.1.2)).sum = 0 := by
  apply List.sum_eq_zero
  intro x hx
  obtain ⟨p, hp, rfl⟩ := List.mem_map.1 hx
  simp [h p hp]

theorem outflow_eq (fac : ℝ) (l : List (ℝ × ℝ × (ℝ × ℝ) × (ℝ × ℝ))) (h : ∀ p ∈ l, p.2.1 = 1) :
    (l.map fun p => p.1 * (-p.2.1 * (fac * p.2.2.2.1 * p.2.2.1.1 + fac * p.2.2.2.2 * p.2.2.1.2))).sum
      = -(fac * outflow l) := by
  induction l with
  | nil => simp [outflow]
  | cons a l ih =>
    have h1 := h a (by simp)
    have := ih fun p hp => h p (List.mem_cons_of_mem _ hp)
    simp only [List.map_cons, List.sum_cons, outflow] at this ⊢
    rw [this, h1]
    ring

/-- C67: the total bed volume changes only by the bedload leaving through the open boundaries: tested
with the constant one, the residual is the sum over the specified boundaries that are not closed of
the outflow (with the factor morfac/(1-porosity)). -/
theorem C67_volume (fac : ℝ) (cell : List (ℝ × (ℝ × ℝ) × (ℝ × ℝ)))
    (bnds : List (List (String × BndVal) × List (ℝ × ℝ × (ℝ × ℝ) × (ℝ × ℝ))))
    (hcell : ∀ p ∈ cell, p.2.1 = (0, 0)) (hb : ∀ b ∈ bnds, ∀ p ∈ b.2, p.2.1 = 1)
    (hok : ∀ b ∈ bnds, (noContr b.1).isSome) :
    bedloadResidual fac cell bnds
      = some (fac * ((bnds.filter fun b => noContr b.1 == some false).map fun b => outflow b.2).sum) := by
  unfold bedloadResidual
  have key : (bnds.mapM fun b => do
      let nc ← noContr b.1
      pure (if nc then 0 else
        (b.2.map fun p => p.1 * (-p.2.1 * (fac * p.2.2.2.1 * p.2.2.1.1 + fac * p.2.2.2.2 * p.2.2.1.2))).sum))
      = some (bnds.map fun b => if noContr b.1 = some false then -(fac * outflow b.2) else 0) := by
    clear hcell
    induction bnds with
    | nil => rfl
    | cons b bnds ih =>
      have h1 := ih (fun b' hb' => hb b' (List.mem_cons_of_mem _ hb'))
        (fun b' hb' => hok b' (List.mem_cons_of_mem _ hb'))
      have h2 := hok b (by simp)
      have h3 := outflow_eq fac b.2 (hb b (by simp))
      rw [List.mapM_cons, h1]
      cases hn : noContr b.1 with
      | none => rw [hn] at h2; simp at h2
      | some x =>
        cases x
        · simp [hn]
          simpa using h3
        · simp [hn]
  rw [key]
  simp only [Option.bind_eq_bind, Option.bind_some, Option.pure_def, Option.some.injEq]
  rw [sum_cell_zero fac cell hcell, add_zero]
  clear key hok hb hcell
  induction bnds with
  | nil => simp
  | cons b bnds ih =>
    simp only [List.map_cons, List.sum_cons, neg_add, ih, List.filter_cons]
    by_cases hn : noContr b.1 = some false
    · simp [hn]; ring
    · simp [hn]

/-- A closed wall and an open outlet. -/
example : (noContr [("un", .scalar 0)] = some true) ∧ (noContr [("elev", .scalar 0)] = some false) := by
  simp [noContr]

/-! ### C68: update -/

/-- C68, the part that holds: unless the velocity correction is on without suspended sediment, updating
a sediment model for new flow fields gives the model built for these fields. -/
theorem C68_update_partial (o : Opts) (h : o.advCorr = true → o.suspended = true) (q q' : Flow) :
    (init o q).update o q' = some (init o q') := by
  unfold Stored.update init
  cases hs : o.suspended <;> cases hb : o.bedload <;> cases hc : o.advCorr <;> cases ha : o.angleCorr <;>
    simp_all

/-- C68: the same after any history of updates. -/
theorem C68_history_partial (o : Opts) (h : o.advCorr = true → o.suspended = true) (q : Flow)
    (l : List Flow) (q' : Flow) :
    (l ++ [q']).foldlM (fun s q => Stored.update o q s) (init o q) = some (init o q') := by
  induction l generalizing q with
  | nil => simp [C68_update_partial o h]
  | cons a l ih =>
    rw [List.cons_append, List.foldlM_cons, C68_update_partial o h]
    exact ih a

/-- C68 is violated: with the velocity correction on (the default) and no suspended sediment (the
default), every update raises an exception. -/
theorem C68_bedload_only_violated (o : Opts) (h : o.advCorr = true) (hs : o.suspended = false)
    (q q' : Flow) : (init o q).update o q' = none := by
  unfold Stored.update init
  cases hb : o.bedload <;> cases ha : o.angleCorr <;> simp_all

/-- C68 is violated: the check of the particle size parameter only refuses meshes where every node is
below the limit. -/
theorem C68_dstar_check_violated : ¬ dstarCheck [1 / 2, 2] ∧ dstarCheck [1 / 2, 1 / 3] := by
  constructor
  · rintro ⟨m, hm, h1, h2⟩
    have := h1 2 (by simp)
    linarith
  · exact ⟨1 / 2, by simp, by norm_num, by norm_num⟩

end Verif.Sediment
