import Verif.Turb.Closure
import Verif.Turb.StabProps
import Mathlib.LinearAlgebra.FiniteDimensional.Basic

/-!
Properties C42 (physical ranges), C43 (positivity of the implicit step), C45 (Richardson number
closure).
-/

namespace Verif.Turb

theorem le_setMin (x m : ℝ) : m ≤ setMin x m := by
  unfold setMin; split
  · exact le_rfl
  · rename_i h; exact not_lt.1 h

theorem le_setMin_left (x m : ℝ) : x ≤ setMin x m := by
  unfold setMin; split
  · rename_i h; exact h.le
  · exact le_rfl

theorem setMin_eq_max (x m : ℝ) : setMin x m = max x m := by
  unfold setMin; split
  · rename_i h; exact (max_eq_right h.le).symm
  · rename_i h; exact (max_eq_left (not_lt.1 h)).symm

/-! ### C42 -/

/-- C42: after every update kinetic energy, psi, dissipation, viscosity and diffusivity are at least
their minimum values, for all states and all limiter switches. -/
theorem C42_minimum (o : GlsOpts) (stab : ℝ → ℝ → ℝ → ℝ → ℝ × ℝ) (s : GlsState) :
    let s' := postprocess o stab s
    o.kMin ≤ s'.k ∧ o.psiMin ≤ s'.psi ∧ o.epsMin ≤ s'.eps ∧ o.viscMin ≤ s'.visc ∧
      o.diffMin ≤ s'.diff := by
  simp only [postprocess]
  exact ⟨le_setMin _ _, le_setMin _ _, le_setMin _ _, le_setMin _ _, le_setMin _ _⟩

/-- C42: values of the kinetic energy above the minimum are left unchanged. -/
theorem C42_k_kept (o : GlsOpts) (stab : ℝ → ℝ → ℝ → ℝ → ℝ × ℝ) (s : GlsState)
    (h : o.kMin ≤ s.k) : (postprocess o stab s).k = s.k := by
  simp [postprocess, setMin, not_lt.2 h]

/-- C42: with the length limit switched on the length scale obeys the stratification limit. -/
theorem C42_length_limit (o : GlsOpts) (stab : ℝ → ℝ → ℝ → ℝ → ℝ × ℝ) (s : GlsState)
    (h : o.limitLen = true) :
    let s' := postprocess o stab s
    s'.len ≤ o.galperin * Real.sqrt (2 * s'.k / (s'.n2pos + 1e-12)) := by
  simp only [postprocess, h, if_true]
  exact min_le_right _ _

theorem rpow_half_eq (x : ℝ) : Real.sqrt x = x ^ (0.5 : ℝ) := by
  rw [Real.sqrt_eq_rpow]; norm_num

theorem epsOf_bound (o : GlsOpts) (k psi N : ℝ) (hk : 0 < k) (hc : 0 < o.cmu0) (hg : 0 < o.galperin)
    (hn : o.n < 0) (hN : 0 < N)
    (hpsi : (Real.sqrt 2 * o.galperin * o.cmu0 ^ (o.p / o.n) * k ^ (o.m / o.n + 0.5)
      * N ^ (-0.5 : ℝ)) ^ o.n ≤ psi) :
    o.cmu0 ^ (3.0 : ℝ) * k ^ (3.0 / 2.0 : ℝ) / (o.galperin * Real.sqrt (2 * k / N)) ≤
      epsOf o k psi := by
  set G := Real.sqrt 2 * o.galperin * o.cmu0 ^ (o.p / o.n) * k ^ (o.m / o.n + 0.5)
    * N ^ (-0.5 : ℝ) with hG
  have hG0 : 0 < G := by positivity
  have he : 0 ≤ -1.0 / o.n := by
    apply div_nonneg_of_nonpos (by norm_num) hn.le
  have h1 : G⁻¹ ≤ psi ^ (-1.0 / o.n) := by
    have := Real.rpow_le_rpow (Real.rpow_nonneg hG0.le _) hpsi he
    rw [← Real.rpow_mul hG0.le] at this
    have e : o.n * (-1.0 / o.n) = -1 := by
      have := hn.ne; field_simp; norm_num
    rw [e, Real.rpow_neg_one] at this
    exact this
  have h2 : o.cmu0 ^ (3.0 + o.p / o.n) * k ^ ((3.0 / 2.0 : ℝ) + o.m / o.n) * G⁻¹ ≤
      epsOf o k psi := by
    unfold epsOf
    apply mul_le_mul_of_nonneg_left h1
    positivity
  refine le_trans (le_of_eq ?_) h2
  have hs : Real.sqrt (2 * k / N) = Real.sqrt 2 * k ^ (0.5 : ℝ) * N ^ (-0.5 : ℝ) := by
    rw [Real.sqrt_div (by positivity), Real.sqrt_mul (by norm_num), rpow_half_eq k,
      rpow_half_eq N, Real.rpow_neg hN.le]
    rfl
  rw [hs, hG, Real.rpow_add hc, Real.rpow_add hk, Real.rpow_add hk]
  have c1 : 0 < o.cmu0 ^ (o.p / o.n) := Real.rpow_pos_of_pos hc _
  have c2 : 0 < k ^ (o.m / o.n) := Real.rpow_pos_of_pos hk _
  have c3 : 0 < k ^ (0.5 : ℝ) := Real.rpow_pos_of_pos hk _
  have c4 : 0 < N ^ (-0.5 : ℝ) := Real.rpow_pos_of_pos hN _
  have c5 : 0 < Real.sqrt 2 := by positivity
  field_simp

/-- C42: with the limit on psi (the default) and a negative exponent `n` (all predefined closures),
the length scale obeys the stratification limit, up to the minimum length. -/
theorem C42_psi_limit (o : GlsOpts) (stab : ℝ → ℝ → ℝ → ℝ → ℝ × ℝ) (s : GlsState)
    (h : o.limitPsi = true) (hn : o.n < 0) (hk : 0 < o.kMin) (hc : 0 < o.cmu0)
    (hg : 0 < o.galperin) (hN : 0 ≤ s.n2pos) :
    let s' := postprocess o stab s
    s'.len ≤ max o.lenMin (o.galperin * Real.sqrt (2 * s'.k / (s'.n2pos + 1e-12))) := by
  have hkk : 0 < setMin s.k o.kMin := lt_of_lt_of_le hk (le_setMin _ _)
  have hNN : 0 < s.n2pos + 1e-12 := by positivity
  simp only [postprocess, h, if_true, if_neg (not_lt.2 hn.le)]
  set k := setMin s.k o.kMin
  set psi := setMin (max s.psi (psiLimit o k s.n2pos)) o.psiMin with hpsi
  have hp : psiLimit o k s.n2pos ≤ psi := (le_max_right _ _).trans (le_setMin_left _ _)
  have hb := epsOf_bound o k psi (s.n2pos + 1e-12) hkk hc hg hn hNN hp
  set e1 := (if o.limitEps = true then
    max (epsOf o k psi) (o.cmu0 ^ (3.0 : ℝ) / (√2 * o.galperin) * √s.n2pos * k)
    else epsOf o k psi) with he1
  have h1 : epsOf o k psi ≤ e1 := by
    rw [he1]; split
    · exact le_max_left _ _
    · exact le_rfl
  have h2 : epsOf o k psi ≤ setMin e1 o.epsMin := h1.trans (le_setMin_left _ _)
  have hL : 0 < o.galperin * Real.sqrt (2 * k / (s.n2pos + 1e-12)) := by positivity
  have hnum : 0 < o.cmu0 ^ (3.0 : ℝ) * k ^ (3.0 / 2.0 : ℝ) := by positivity
  have hlow : 0 < o.cmu0 ^ (3.0 : ℝ) * k ^ (3.0 / 2.0 : ℝ)
      / (o.galperin * Real.sqrt (2 * k / (s.n2pos + 1e-12))) := by positivity
  have heps : 0 < setMin e1 o.epsMin := lt_of_lt_of_le hlow (hb.trans h2)
  have h3 : o.cmu0 ^ (3.0 : ℝ) * k ^ (3.0 / 2.0 : ℝ) / setMin e1 o.epsMin ≤
      o.galperin * Real.sqrt (2 * k / (s.n2pos + 1e-12)) := by
    rw [div_le_iff₀ heps]
    have := hb.trans h2
    rw [div_le_iff₀ hL] at this
    linarith
  set L := o.cmu0 ^ (3.0 : ℝ) * k ^ (3.0 / 2.0 : ℝ) / setMin e1 o.epsMin
  have h4 : (if o.limitLenMin = true then setMin L o.lenMin else L) ≤
      max o.lenMin (o.galperin * Real.sqrt (2 * k / (s.n2pos + 1e-12))) := by
    split
    · rw [setMin_eq_max, max_comm]; exact max_le_max le_rfl h3
    · exact h3.trans (le_max_right _ _)
  split
  · exact (min_le_left _ _).trans h4
  · exact h4

/-- C42: with the minimum length switched on and the length limit off (the defaults) the length is at
least its minimum; with both on, the stratification limit has precedence. -/
theorem C42_length_min (o : GlsOpts) (stab : ℝ → ℝ → ℝ → ℝ → ℝ × ℝ) (s : GlsState)
    (h : o.limitLenMin = true) :
    let s' := postprocess o stab s
    (o.limitLen = false → o.lenMin ≤ s'.len) ∧
    (o.limitLen = true →
      min o.lenMin (o.galperin * Real.sqrt (2 * s'.k / (s'.n2pos + 1e-12))) ≤ s'.len) := by
  constructor
  · intro h2
    simp only [postprocess, h, h2, if_true, Bool.false_eq_true, if_false]
    exact le_setMin _ _
  · intro h2
    simp only [postprocess, h, h2, if_true]
    exact min_le_min (le_setMin _ _) le_rfl

/-- C42: the split buoyancy frequency has the right signs and reproduces the frequency up to the
offset 1e-12 used in unstable conditions; the squared shear frequency is at least its minimum. -/
theorem C42_frequencies :
    (∀ n2, 0 ≤ (splitN2 n2).1 ∧ (splitN2 n2).2 ≤ 0 ∧
      (0 ≤ n2 → splitN2 n2 = (n2, 0)) ∧ (n2 < 0 → splitN2 n2 = (1e-12, n2))) ∧
    (∀ r mv init gu gv a b, mv ≤ (shearSolve r mv init gu gv a b).2.2) ∧
    (∀ r mv gu gv a b, mv ≤ gu ^ 2 + gv ^ 2 →
      (shearSolve r mv true gu gv a b).2.2 = gu ^ 2 + gv ^ 2) := by
  refine ⟨?_, ?_, ?_⟩
  · intro n2
    by_cases h : n2 ≥ 0
    · have e : splitN2 n2 = (n2, 0) := by simp only [splitN2, if_pos h]
      rw [e]
      exact ⟨h, le_rfl, fun _ => rfl, fun h' => absurd h (not_le.2 h')⟩
    · have e : splitN2 n2 = (1e-12, n2) := by simp only [splitN2, if_neg h]
      rw [e]
      exact ⟨by norm_num, (not_le.1 h).le, fun h' => absurd h' h, fun _ => rfl⟩
  · intro r mv init gu gv a b; exact le_setMin _ _
  · intro r mv gu gv a b h
    have e : (shearSolve r mv true gu gv a b).2.2 = setMin (gu ^ 2 + gv ^ 2) mv := by
      simp only [shearSolve, if_true]; congr 1; ring
    rw [e]; simp [setMin, not_lt.2 h]

/-- C42: initialising with a length scale is consistent: the dissipation recovered from the initial
psi is the initial dissipation, and the length recovered from it is the requested one; likewise the
computed minimum of psi belongs to the minimum dissipation. -/
theorem C42_init_consistent (o : GlsOpts) (hn : o.n ≠ 0) (hk : 0 < o.kMin) (hc : 0 < o.cmu0) :
    (∀ e, 0 < e → epsOf o o.kMin (psiFor o e) = e) ∧
    (∀ l, 0 < l → o.cmu0 ^ (3.0 : ℝ) * o.kMin ^ (3.0 / 2.0 : ℝ) / epsInit o l = l) := by
  constructor
  · intro e he
    unfold epsOf psiFor
    set A := o.cmu0 ^ (3.0 + o.p / o.n) * o.kMin ^ ((3.0 / 2.0 : ℝ) + o.m / o.n) with hA
    have hA0 : 0 < A := by positivity
    have hb : 0 < A * e ^ (-1.0 : ℝ) := by positivity
    rw [← Real.rpow_mul hb.le]
    have h1 : o.n * (-1.0 / o.n) = -1 := by field_simp; norm_num
    have h2 : e ^ (-1.0 : ℝ) = e⁻¹ := by
      rw [show (-1.0 : ℝ) = -1 by norm_num, Real.rpow_neg_one]
    rw [h1, Real.rpow_neg_one, h2]
    field_simp
  · intro l hl
    unfold epsInit
    have : 0 < o.cmu0 ^ (3.0 : ℝ) * o.kMin ^ (3.0 / 2.0 : ℝ) := by positivity
    field_simp

/-- C42: with a positive limited stability function viscosity and diffusivity are the unlimited
closure values whenever these exceed the minimum. -/
theorem C42_closure (o : GlsOpts) (stab : ℝ → ℝ → ℝ → ℝ → ℝ × ℝ) (s : GlsState) :
    let s' := postprocess o stab s
    let b := Real.sqrt s'.k * s'.len / o.cmu0 ^ 3
    s'.visc = max (b * (stab s.m2 s.n2 s'.k s'.eps).1) o.viscMin ∧
    s'.diff = max (b * (stab s.m2 s.n2 s'.k s'.eps).2) o.diffMin := by
  have aux : ∀ b sf c v m : ℝ, setMin (1.0 * (b * sf / c) + (1.0 - 1.0) * v) m =
      max (b / c * sf) m := by
    intro b sf c v m
    have h1 : (1.0 : ℝ) = 1 := by norm_num
    rw [setMin_eq_max, h1, sub_self, zero_mul, add_zero, one_mul, div_mul_eq_mul_div]
  exact ⟨aux _ _ _ _ _, aux _ _ _ _ _⟩

/-- Non-vacuity: default k-epsilon options and a state violating all minima. -/
example : let o : GlsOpts := ⟨3, 1.5, -1, 0.5477, 1e-6, 1e-14, 1e-14, 1e-12, 1e-8, 1e-8, 0.3,
      false, true, false, true⟩
    o.limitPsi = true ∧ o.n < 0 ∧ 0 < o.kMin ∧ 0 < o.cmu0 ∧ 0 < o.galperin ∧
    (∀ s : GlsState, s.k = -1 → 0 < (postprocess o (fun _ _ _ _ => (0, 0)) s).k) := by
  refine ⟨rfl, by norm_num, by norm_num, by norm_num, by norm_num, ?_⟩
  intro s _
  exact lt_of_lt_of_le (by norm_num) (C42_minimum _ _ s).1

/-! ### C43 -/

section C43

variable {ι : Type} [Fintype ι]

theorem step_pos [Nonempty ι] (dt : ℝ) (hdt : 0 ≤ dt) (vol : ι → ℝ) (hv : ∀ i, 0 < vol i)
    (src : ι → ℝ → ℝ → ℝ) (S L : ι → ℝ) (x0 x1 flux : ι → ℝ) (w : ι → ι → ℝ)
    (hsrc : ∀ i, src i (x1 i) (x0 i) = S i - L i * x1 i) (hS : ∀ i, 0 ≤ S i) (hL : ∀ i, 0 ≤ L i)
    (hf : ∀ i, 0 ≤ flux i) (hw : ∀ i j, 0 ≤ w i j) (h0 : ∀ i, 0 < x0 i)
    (h : IsStep dt vol src flux w x0 x1) : ∀ i, 0 < x1 i := by
  obtain ⟨m, hm⟩ := Finite.exists_min x1
  have hsum : 0 ≤ ∑ j, w m j * (x1 j - x1 m) :=
    Finset.sum_nonneg (fun j _ => mul_nonneg (hw m j) (by linarith [hm j]))
  have e := h m
  rw [hsrc m] at e
  have hmpos : 0 < x1 m := by
    by_contra hneg
    have hle : x1 m ≤ 0 := not_lt.1 hneg
    have a1 : L m * x1 m ≤ 0 := mul_nonpos_of_nonneg_of_nonpos (hL m) hle
    have a2 : 0 ≤ vol m * (S m - L m * x1 m) + flux m + ∑ j, w m j * (x1 j - x1 m) := by
      have : 0 ≤ vol m * (S m - L m * x1 m) := mul_nonneg (hv m).le (by linarith [hS m])
      linarith [hf m]
    have a3 := mul_nonneg hdt a2
    have a4 : vol m * (x1 m - x0 m) < 0 := mul_neg_of_pos_of_neg (hv m) (by linarith [h0 m])
    linarith
  intro i; linarith [hm i]

/-- Signs of the fields entering the sources; they hold after preprocess and postprocess
(`C42_minimum`, `C42_frequencies`) for positive minimum values. -/
structure SrcFields.Ok (f : SrcFields) : Prop where
  visc : 0 ≤ f.visc
  diff : 0 ≤ f.diff
  eps : 0 ≤ f.eps
  m2 : 0 ≤ f.m2
  n2pos : 0 ≤ f.n2pos
  n2neg : f.n2neg ≤ 0

/-- C43: for every time step, every column or mesh of cells and every positive previous kinetic
energy, the implicit step of the kinetic energy equation (sources and vertical diffusion) is
positive. -/
theorem C43_tke_positive [Nonempty ι] (dt : ℝ) (hdt : 0 ≤ dt) (vol : ι → ℝ) (hv : ∀ i, 0 < vol i)
    (f : ι → SrcFields) (hf : ∀ i, (f i).Ok) (w : ι → ι → ℝ) (hw : ∀ i j, 0 ≤ w i j)
    (k0 k1 : ι → ℝ) (h0 : ∀ i, 0 < k0 i)
    (h : IsStep dt vol (fun i => tkeSource (f i)) (fun _ => 0) w k0 k1) : ∀ i, 0 < k1 i := by
  refine step_pos dt hdt vol hv _
    (fun i => (f i).visc * (f i).m2 + -(f i).diff * (f i).n2neg)
    (fun i => ((f i).diff * (f i).n2pos + (f i).eps) / k0 i) k0 k1 _ w ?_ ?_ ?_ (fun _ => le_rfl)
    hw h0 h
  · intro i; simp only [tkeSource]; ring
  · intro i
    have := hf i
    have h1 := mul_nonneg this.visc this.m2
    have h2 := mul_nonneg this.diff (neg_nonneg.2 this.n2neg)
    nlinarith
  · intro i
    have := hf i
    have h1 := mul_nonneg this.diff this.n2pos
    exact div_nonneg (by linarith [this.eps]) (h0 i).le

/-- C43: the same for psi, including its boundary fluxes (non-negative, see `C43_psi_flux`), for
either sign of `c3_minus`. -/
theorem C43_psi_positive [Nonempty ι] (dt : ℝ) (hdt : 0 ≤ dt) (vol : ι → ℝ) (hv : ∀ i, 0 < vol i)
    (c : PsiConsts) (hc1 : 0 ≤ c.c1) (hc2 : 0 ≤ c.c2) (hc3 : 0 ≤ c.c3plus) (hw0 : 0 ≤ c.fWall)
    (f : ι → SrcFields) (hf : ∀ i, (f i).Ok) (flux : ι → ℝ) (hflux : ∀ i, 0 ≤ flux i)
    (w : ι → ι → ℝ) (hw : ∀ i j, 0 ≤ w i j) (k p0 p1 : ι → ℝ) (hk : ∀ i, 0 < k i)
    (h0 : ∀ i, 0 < p0 i)
    (h : IsStep dt vol (fun i => psiSource c (f i) (k i)) flux w p0 p1) : ∀ i, 0 < p1 i := by
  refine step_pos dt hdt vol hv _
    (fun i => p0 i / k i * (c.c1 * ((f i).visc * (f i).m2) +
      (if c.c3minus > 0 then c.c3plus * -(f i).diff * (f i).n2neg
        else c.c3plus * -(f i).diff * (f i).n2neg + c.c3minus * -(f i).diff * (f i).n2pos)))
    (fun i => (c.c2 * c.fWall * (f i).eps - (if c.c3minus > 0 then
      c.c3minus * -(f i).diff * (f i).n2pos else 0)) / k i) p0 p1 flux w ?_ ?_ ?_ hflux hw h0 h
  · intro i; simp only [psiSource]; ring
  · intro i
    have hi := hf i
    have h1 := mul_nonneg hc1 (mul_nonneg hi.visc hi.m2)
    have h2 : 0 ≤ c.c3plus * -(f i).diff * (f i).n2neg := by
      have := mul_nonneg (mul_nonneg hc3 hi.diff) (neg_nonneg.2 hi.n2neg)
      nlinarith
    have h3 : 0 ≤ (if c.c3minus > 0 then c.c3plus * -(f i).diff * (f i).n2neg
        else c.c3plus * -(f i).diff * (f i).n2neg + c.c3minus * -(f i).diff * (f i).n2pos) := by
      split
      · exact h2
      · rename_i hn
        have hn' : 0 ≤ -c.c3minus := by linarith [not_lt.1 hn]
        have := mul_nonneg (mul_nonneg hn' hi.diff) hi.n2pos
        nlinarith
    exact mul_nonneg (div_pos (h0 i) (hk i)).le (by linarith)
  · intro i
    have hi := hf i
    have h1 := mul_nonneg (mul_nonneg hc2 hw0) hi.eps
    have h2 : (if c.c3minus > 0 then c.c3minus * -(f i).diff * (f i).n2pos else 0) ≤ 0 := by
      split
      · rename_i hp
        have := mul_nonneg (mul_nonneg (le_of_lt hp) hi.diff) hi.n2pos
        nlinarith
      · exact le_rfl
    exact div_nonneg (by linarith) (hk i).le

/-- C43: the boundary fluxes of psi are sources for the predefined closures (`n < 0`), both at the
bottom (normal pointing down) and at the surface (normal pointing up). -/
theorem C43_psi_flux (n visc schmidt cmu0 p m k kappa z : ℝ) (hn : n ≤ 0) (hv : 0 ≤ visc)
    (hs : 0 < schmidt) (hc : 0 < cmu0) (hk : 0 < k) (hka : 0 < kappa) (hz : 0 < z) (nz : ℝ) :
    (nz ≤ 0 → 0 ≤ psiFlux n visc schmidt cmu0 p m k kappa z false nz) ∧
    (0 ≤ nz → 0 ≤ psiFlux n visc schmidt cmu0 p m k kappa z true nz) := by
  have hd : n * (visc / schmidt) * cmu0 ^ p * k ^ m * kappa ^ n * z ^ (n - 1.0) ≤ 0 := by
    have h1 : n * (visc / schmidt) ≤ 0 := mul_nonpos_of_nonpos_of_nonneg hn (by positivity)
    have h2 : 0 ≤ cmu0 ^ p * k ^ m * kappa ^ n * z ^ (n - 1.0) := by positivity
    have := mul_nonpos_of_nonpos_of_nonneg h1 h2
    calc _ = n * (visc / schmidt) * (cmu0 ^ p * k ^ m * kappa ^ n * z ^ (n - 1.0)) := by ring
      _ ≤ 0 := this
  constructor
  · intro h; simpa [psiFlux] using mul_nonneg_of_nonpos_of_nonpos hd h
  · intro h
    simp only [psiFlux, if_true]
    exact mul_nonneg (by linarith) h

/-- C43: the implicit system of the kinetic energy equation always has exactly one solution, so the
step exists. -/
theorem C43_step_exists_unique (dt : ℝ) (hdt : 0 ≤ dt) (vol : ι → ℝ)
    (hv : ∀ i, 0 < vol i) (S L flux : ι → ℝ) (hL : ∀ i, 0 ≤ L i) (w : ι → ι → ℝ)
    (hw : ∀ i j, 0 ≤ w i j) (x0 : ι → ℝ) :
    ∃! x1 : ι → ℝ, IsStep dt vol (fun i x _ => S i - L i * x) flux w x0 x1 := by
  let A : (ι → ℝ) →ₗ[ℝ] (ι → ℝ) :=
    { toFun := fun x i => vol i * x i + dt * (vol i * (L i * x i)) - dt * ∑ j, w i j * (x j - x i)
      map_add' := by
        intro x y; funext i
        simp only [Pi.add_apply]
        have : ∑ j, w i j * (x j + y j - (x i + y i)) =
            ∑ j, w i j * (x j - x i) + ∑ j, w i j * (y j - y i) := by
          rw [← Finset.sum_add_distrib]
          exact Finset.sum_congr rfl (fun j _ => by ring)
        rw [this]; ring
      map_smul' := by
        intro a x; funext i
        simp only [Pi.smul_apply, smul_eq_mul, RingHom.id_apply]
        have : ∑ j, w i j * (a * x j - a * x i) = a * ∑ j, w i j * (x j - x i) := by
          rw [Finset.mul_sum]
          exact Finset.sum_congr rfl (fun j _ => by ring)
        rw [this]; ring }
  have hlow : ∀ x, A x = 0 → ∀ i, 0 ≤ x i := by
    intro x hx i
    have : Nonempty ι := ⟨i⟩
    obtain ⟨m, hm⟩ := Finite.exists_min x
    have hsum : 0 ≤ ∑ j, w m j * (x j - x m) :=
      Finset.sum_nonneg (fun j _ => mul_nonneg (hw m j) (by linarith [hm j]))
    have e : vol m * x m + dt * (vol m * (L m * x m)) - dt * ∑ j, w m j * (x j - x m) = 0 :=
      congrFun hx m
    have h2 := mul_nonneg hdt hsum
    have h3 : 0 ≤ vol m * (1 + dt * L m) * x m := by nlinarith
    have h4 : 0 < vol m * (1 + dt * L m) :=
      mul_pos (hv m) (by have := mul_nonneg hdt (hL m); linarith)
    have : 0 ≤ x m := by
      by_contra hneg
      have := mul_neg_of_pos_of_neg h4 (not_le.1 hneg)
      linarith
    linarith [hm i]
  have hinj : Function.Injective A := by
    rw [← LinearMap.ker_eq_bot, LinearMap.ker_eq_bot']
    intro x hx
    funext i
    have h1 := hlow x hx i
    have h2 := hlow (-x) (by rw [map_neg, hx, neg_zero]) i
    simp only [Pi.neg_apply, Pi.zero_apply] at h2 ⊢
    linarith
  have hsurj : Function.Surjective A := LinearMap.injective_iff_surjective.1 hinj
  have hiff : ∀ x1, IsStep dt vol (fun i x _ => S i - L i * x) flux w x0 x1 ↔
      A x1 = fun i => vol i * x0 i + dt * (vol i * S i + flux i) := by
    intro x1
    constructor
    · intro h; funext i
      have := h i
      change vol i * x1 i + dt * (vol i * (L i * x1 i)) - dt * ∑ j, w i j * (x1 j - x1 i) = _
      linarith
    · intro h i
      have : vol i * x1 i + dt * (vol i * (L i * x1 i)) - dt * ∑ j, w i j * (x1 j - x1 i) = _ :=
        congrFun h i
      linarith
  obtain ⟨x1, hx1⟩ := hsurj (fun i => vol i * x0 i + dt * (vol i * S i + flux i))
  refine ⟨x1, (hiff x1).2 hx1, ?_⟩
  intro y hy
  exact hinj (((hiff y).1 hy).trans hx1.symm)

/-- The Patankar form is consistent: at a steady state (`x1 = x0`) the sources are the unsplit ones. -/
theorem C43_consistent (c : PsiConsts) (f : SrcFields) (k x : ℝ) (hx : x ≠ 0)
    (h2 : f.n2pos * f.n2neg = 0) :
    tkeSource f x x = f.visc * f.m2 - f.diff * (f.n2pos + f.n2neg) - f.eps ∧
    psiSource c f k x x = x / k * (c.c1 * (f.visc * f.m2)
      + (if f.n2neg = 0 then c.c3minus else c.c3plus) * (-f.diff * (f.n2pos + f.n2neg))
      - c.c2 * f.eps * c.fWall) := by
  constructor
  · simp only [tkeSource]; field_simp; ring
  · simp only [psiSource]
    rcases mul_eq_zero.1 h2 with h | h
    · by_cases hn : f.n2neg = 0
      · simp only [h, hn, if_true]; split <;> ring
      · simp only [h, hn, if_false]; split <;> ring
    · simp only [h, if_true]; split <;> ring

/-- Non-vacuity: a column of two cells with diffusion and a very long time step. -/
example : ∃ k1 : Fin 2 → ℝ, IsStep 1000 (fun _ => 1) (fun _ => tkeSource ⟨0, 0, 1, 0, 0, 0⟩)
    (fun _ => 0) (fun _ _ => 1) (fun _ => 1) k1 ∧ ∀ i, 0 < k1 i ∧ k1 i < 1 := by
  refine ⟨fun _ => 1 / 1001, ?_, ?_⟩
  · intro i; simp [tkeSource]; norm_num
  · intro i; norm_num

end C43

/-! ### C45 -/

theorem pp_denom (o : PPOpts) (ha : 0 < o.alpha) (n2 m2 : ℝ) (hm : 0 < m2) :
    1 ≤ 1.0 + o.alpha * ((splitN2 n2).1 / m2) := by
  have h := (C42_frequencies.1 n2).1
  have : 0 ≤ o.alpha * ((splitN2 n2).1 / m2) := by positivity
  norm_num; exact this

/-- C45: viscosity and diffusivity are positive, diffusivity ≤ viscosity ≤ maximum viscosity. -/
theorem C45_range (o : PPOpts) (hv : 0 < o.maxVisc) (ha : 0 < o.alpha) (he : 0 < o.exponent)
    (n2 m2 : ℝ) (hm : 0 < m2) :
    0 < (ppClosure o n2 m2).2 ∧ (ppClosure o n2 m2).2 ≤ (ppClosure o n2 m2).1 ∧
      (ppClosure o n2 m2).1 ≤ o.maxVisc := by
  have hd := pp_denom o ha n2 m2 hm
  simp only [ppClosure]
  generalize 1.0 + o.alpha * ((splitN2 n2).1 / m2) = d at hd
  have hd0 : 0 < d := by linarith
  have hp : 1 ≤ d ^ o.exponent := Real.one_le_rpow hd he.le
  refine ⟨by positivity, ?_, ?_⟩
  · exact div_le_self (by positivity) hd
  · exact div_le_self hv.le hp

/-- C45, provable part: both are non-increasing in the stratification on the stable side, and
neutral stratification gives the maximum.  Missing: the unstable side, see
`C45_unstable_violated`. -/
theorem C45_monotone_partial (o : PPOpts) (hv : 0 < o.maxVisc) (ha : 0 < o.alpha)
    (he : 0 < o.exponent) (m2 : ℝ) (hm : 0 < m2) :
    (∀ a b, 0 ≤ a → a ≤ b → (ppClosure o b m2).1 ≤ (ppClosure o a m2).1 ∧
      (ppClosure o b m2).2 ≤ (ppClosure o a m2).2) ∧
    ppClosure o 0 m2 = (o.maxVisc, o.maxVisc) := by
  constructor
  · intro a b h0 hab
    have hda := pp_denom o ha a m2 hm
    have hdb := pp_denom o ha b m2 hm
    simp only [ppClosure]
    have ea : (splitN2 a).1 = a := by simp [splitN2, h0]
    have eb : (splitN2 b).1 = b := by simp [splitN2, h0.trans hab]
    rw [ea] at hda ⊢
    rw [eb] at hdb ⊢
    have hle : 1.0 + o.alpha * (a / m2) ≤ 1.0 + o.alpha * (b / m2) := by gcongr
    have hp := Real.rpow_le_rpow (by linarith) hle he.le
    have hpa : 0 < (1.0 + o.alpha * (a / m2)) ^ o.exponent :=
      Real.rpow_pos_of_pos (by linarith) _
    have h1 : o.maxVisc / (1.0 + o.alpha * (b / m2)) ^ o.exponent ≤
        o.maxVisc / (1.0 + o.alpha * (a / m2)) ^ o.exponent := by gcongr
    refine ⟨h1, ?_⟩
    exact div_le_div₀ (by positivity) h1 (by linarith) hle
  · simp [ppClosure, splitN2]
    norm_num

/-- C45: in unstable stratification the closure is independent of the strength of the instability
and equals the value at the offset 1e-12. -/
theorem C45_unstable (o : PPOpts) (n2 m2 : ℝ) (h : n2 < 0) :
    ppClosure o n2 m2 = ppClosure o 1e-12 m2 := by
  have e1 : (splitN2 n2).1 = 1e-12 := by simp [splitN2, not_le.2 h]
  have e2 : (splitN2 1e-12).1 = 1e-12 := by simp only [splitN2]; norm_num
  simp only [ppClosure, e1, e2]

/-- C45 is violated: where the shear vanishes (`m2` at its floor 1e-12) an unstable column gets, with
the default parameters, 1/121 of the maximum viscosity instead of the maximum (the documentation
says Ri = 0 is used). -/
theorem C45_unstable_violated (n2 : ℝ) (h : n2 < 0) :
    let o : PPOpts := ⟨5e-2, 10, 2⟩
    let m2 := (shearSolve 1 1e-12 false 0 0 0 0).2.2
    (ppClosure o n2 m2).1 = o.maxVisc / 121 ∧ (ppClosure o n2 m2).1 < (ppClosure o 0 m2).1 := by
  have hm : (shearSolve 1 1e-12 false 0 0 0 0).2.2 = 1e-12 := by
    simp only [shearSolve, setMin]; norm_num
  have e1 : (splitN2 n2).1 = 1e-12 := by simp [splitN2, not_le.2 h]
  have e0 : (splitN2 0).1 = 0 := by simp [splitN2]
  have key : (ppClosure ⟨5e-2, 10, 2⟩ n2 1e-12).1 = 5e-2 / 121 := by
    simp only [ppClosure, e1]; norm_num
  have key0 : (ppClosure ⟨5e-2, 10, 2⟩ 0 1e-12).1 = 5e-2 := by
    simp only [ppClosure, e0]; norm_num
  simp only [hm]
  rw [key, key0]
  refine ⟨rfl, by norm_num⟩

end Verif.Turb
