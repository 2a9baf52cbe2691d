import Verif.Mom3.Props
import Verif.Tracer3.Props3
import Mathlib.Analysis.Complex.ExponentialBounds
import Mathlib.Topology.Order.IntermediateValue

/-!
C90: viscosity, friction, Coriolis force and wind stress in the momentum equation on extruded meshes.
-/

namespace Verif.Mom3

open Verif.Dg Verif.Ext

variable {e : Mesh3}

/-! ### Vertical viscosity -/

theorem vViscosity_eq (T : Term e) (F : Fields e) (u test U : Vc e.m) :
    vViscosity T F u test = ∑ c, Tracer3.vDiffusion (tTerm T) (tFields F U) (u c) (test c) := by
  have hd : (tTerm T).vdg = T.vdg := rfl
  have hm : (tFields F U).diffV = F.viscV := rfl
  unfold vViscosity Tracer3.vDiffusion
  rw [hm]
  cases F.viscV with
  | none => simp
  | some mu =>
    simp only [hd, Fin.sum_univ_three]
    rw [dx_add, dx_add]
    cases T.vdg
    · simp; ring
    · simp only [if_true]
      rw [dSh_add, dSh_add]
      change -(_ + (e.dSh _ + e.dSh _ + e.dSh _)) = -(_ + e.dSh _) + -(_ + e.dSh _) + -(_ + e.dSh _)
      have : ∀ s, sigmaV T s = Tracer3.sigmaV (tTerm T) s := fun s => rfl
      simp only [this, avgStress]
      ring

/-- C90: vertical viscosity takes kinetic energy, for a viscosity that is nowhere negative and a penalty that dominates
the constant `kappa` of the trace inequality. -/
theorem C90_vertical (T : Term e) (F : Fields e) (u : Vc e.m) (mu : Sc e.m) (kappa alpha : ℝ) (hmu : F.viscV = some mu)
    (hflat : e.m.Flat) (hvol : ∀ s, 0 < e.m.volP s ∧ 0 < e.m.volM s ∧ 0 < e.m.areaS s)
    (hmuC : ∀ x, 0 ≤ (mu (.cell x)).v) (hmuS : ∀ s, 0 ≤ (mu (.plus s)).v ∧ 0 ≤ (mu (.minus s)).v)
    (hkappa : 0 < kappa) (htrace : ∀ c, Tracer3.TraceBoundV mu (u c) kappa)
    (hsipg : ∀ s, alpha ≤ (T.sipgV (.plus s)).v ∧ alpha ≤ (T.sipgV (.minus s)).v)
    (halpha : kappa / 2 ≤ alpha * (T.q + 1) ^ 2) :
    vViscosity T F u u ≤ 0 := by
  rw [vViscosity_eq T F u u u]
  exact Finset.sum_nonpos fun c _ => Tracer3.C88_dissipation (tTerm T) (tFields F u) mu (u c) kappa alpha hmu hflat
    hvol hmuC hmuS hkappa (htrace c) hsipg halpha

/-- C90: it exchanges momentum within the water column only: for test functions that do not vary in the vertical it is
zero. -/
theorem C90_columns (T : Term e) (F : Fields e) (u test : Vc e.m) (hflat : e.m.Flat)
    (hg : ∀ i x, (test i x).g 2 = 0)
    (hj : ∀ i s, e.hor s = true → (test i (.plus s)).v = (test i (.minus s)).v) :
    vViscosity T F u test = 0 := by
  rw [vViscosity_eq T F u test u]
  exact Finset.sum_eq_zero fun c _ => Tracer3.C88_columns _ _ _ _ hflat (hg c) (hj c)

theorem vDiffusion_add (T : Tracer3.Term e) (F : Tracer3.Fields e) (c d test : Sc e.m) :
    Tracer3.vDiffusion T F (c + d) test = Tracer3.vDiffusion T F c test + Tracer3.vDiffusion T F d test := by
  unfold Tracer3.vDiffusion
  cases F.diffV with
  | none => simp
  | some mu =>
    have hg : ∀ p i, ((c + d) p).g i = (c p).g i + (d p).g i := fun p i => rfl
    have hv : ∀ p, ((c + d) p).v = (c p).v + (d p).v := fun p => rfl
    have a1 : (e.m.dx fun x => (test (.cell x)).g 2 * ((mu (.cell x)).v * ((c + d) (.cell x)).g 2)) =
        (e.m.dx fun x => (test (.cell x)).g 2 * ((mu (.cell x)).v * (c (.cell x)).g 2)) +
        e.m.dx fun x => (test (.cell x)).g 2 * ((mu (.cell x)).v * (d (.cell x)).g 2) := by
      rw [← dx_add]
      exact dx_congr fun x => by rw [hg]; ring
    simp only
    rw [a1]
    split
    · have a2 : ∀ (f : Sc e.m), (e.dSh fun s => Tracer3.sigmaV T s * (jumpN test s 2 * (avg mu s * jumpN f s 2)) -
            (1 / 2) * ((mu (.plus s)).v * (test (.plus s)).g 2 + (mu (.minus s)).v * (test (.minus s)).g 2) *
              jumpN f s 2 -
            jumpN test s 2 * ((1 / 2) * ((mu (.plus s)).v * (f (.plus s)).g 2 + (mu (.minus s)).v * (f (.minus s)).g 2))) =
          e.dSh fun s => Tracer3.sigmaV T s * (jumpN test s 2 * (avg mu s * jumpN f s 2)) -
            (1 / 2) * ((mu (.plus s)).v * (test (.plus s)).g 2 + (mu (.minus s)).v * (test (.minus s)).g 2) *
              jumpN f s 2 -
            jumpN test s 2 * ((1 / 2) * ((mu (.plus s)).v * (f (.plus s)).g 2 +
              (mu (.minus s)).v * (f (.minus s)).g 2)) := fun f => rfl
      have a3 : (e.dSh fun s => Tracer3.sigmaV T s * (jumpN test s 2 * (avg mu s * jumpN (c + d) s 2)) -
            (1 / 2) * ((mu (.plus s)).v * (test (.plus s)).g 2 + (mu (.minus s)).v * (test (.minus s)).g 2) *
              jumpN (c + d) s 2 -
            jumpN test s 2 * ((1 / 2) * ((mu (.plus s)).v * ((c + d) (.plus s)).g 2 +
              (mu (.minus s)).v * ((c + d) (.minus s)).g 2))) =
          (e.dSh fun s => Tracer3.sigmaV T s * (jumpN test s 2 * (avg mu s * jumpN c s 2)) -
            (1 / 2) * ((mu (.plus s)).v * (test (.plus s)).g 2 + (mu (.minus s)).v * (test (.minus s)).g 2) *
              jumpN c s 2 -
            jumpN test s 2 * ((1 / 2) * ((mu (.plus s)).v * (c (.plus s)).g 2 + (mu (.minus s)).v * (c (.minus s)).g 2))) +
          e.dSh fun s => Tracer3.sigmaV T s * (jumpN test s 2 * (avg mu s * jumpN d s 2)) -
            (1 / 2) * ((mu (.plus s)).v * (test (.plus s)).g 2 + (mu (.minus s)).v * (test (.minus s)).g 2) *
              jumpN d s 2 -
            jumpN test s 2 * ((1 / 2) * ((mu (.plus s)).v * (d (.plus s)).g 2 +
              (mu (.minus s)).v * (d (.minus s)).g 2)) := by
        rw [← dSh_add]
        refine dSh_congr fun s _ => ?_
        unfold jumpN
        rw [hg, hg, hv, hv]; ring
      rw [a3]; ring
    · ring

/-- C90: the deviation from the depth average suffices: a velocity that is constant in the vertical, like the depth
average, adds nothing to vertical viscosity. -/
theorem C90_deviation (T : Term e) (F : Fields e) (u d test : Vc e.m) (hflat : e.m.Flat)
    (hg : ∀ i x, (d i x).g 2 = 0)
    (hj : ∀ i s, e.hor s = true → (d i (.plus s)).v = (d i (.minus s)).v) :
    vViscosity T F (fun i => u i + d i) test = vViscosity T F u test := by
  rw [vViscosity_eq T F _ test u, vViscosity_eq T F _ test u]
  refine Finset.sum_congr rfl fun c _ => ?_
  rw [vDiffusion_add, Tracer3.C88_symmetric _ _ (d c),
    Tracer3.C88_columns _ _ _ (d c) hflat (hg c) (hj c), add_zero]

/-! ### Horizontal viscosity -/

theorem hViscosity_eq (T : Term e) (F : Fields e) (u U test : Vc e.m) (hU : IsTotal F u U)
    (h2 : test 2 = cst e.m 0) :
    hViscosity T F u test =
      Tracer3.hDiffusion (tTerm T) (tFields F U) (U 0) (test 0) +
      Tracer3.hDiffusion (tTerm T) (tFields F U) (U 1) (test 1) := by
  have hd : (tTerm T).hdg = T.hdg := rfl
  have hsp : (tTerm T).sipg = T.sipg := rfl
  have hm : (tFields F U).diffH = F.viscH := rfl
  have hsg : ∀ s, sigmaH T s = T.sipg * Tracer3.sigmaH (tTerm T) s := fun s => rfl
  unfold hViscosity Tracer3.hDiffusion
  rw [hm]
  cases F.viscH with
  | none => simp
  | some mu =>
    rw [hU.eq]
    simp only [hd, hsp, Mom3.h2, hsg]
    have a1 : (e.m.dx fun x =>
        (test 0 (.cell x)).g 0 * ((mu (.cell x)).v * (U 0 (.cell x)).g 0) +
          (test 0 (.cell x)).g 1 * ((mu (.cell x)).v * (U 0 (.cell x)).g 1) +
        ((test 1 (.cell x)).g 0 * ((mu (.cell x)).v * (U 1 (.cell x)).g 0) +
          (test 1 (.cell x)).g 1 * ((mu (.cell x)).v * (U 1 (.cell x)).g 1))) = _ := dx_add _ _
    rw [a1]
    have b : ∀ (D : (e.m.B → ℝ) → ℝ), (∀ f h, D (fun b => f b + h b) = D f + D h) →
        D (fun b => -((mu (.bnd b)).v * (U 0 (.bnd b)).g 0 * ((test 0 (.bnd b)).v * e.m.nb b 0) +
          (mu (.bnd b)).v * (U 0 (.bnd b)).g 1 * ((test 0 (.bnd b)).v * e.m.nb b 1) +
          ((mu (.bnd b)).v * (U 1 (.bnd b)).g 0 * ((test 1 (.bnd b)).v * e.m.nb b 0) +
          (mu (.bnd b)).v * (U 1 (.bnd b)).g 1 * ((test 1 (.bnd b)).v * e.m.nb b 1)))) =
        D (fun b => -(((mu (.bnd b)).v * (U 0 (.bnd b)).g 0 * e.m.nb b 0 +
          (mu (.bnd b)).v * (U 0 (.bnd b)).g 1 * e.m.nb b 1) * (test 0 (.bnd b)).v)) +
        D (fun b => -(((mu (.bnd b)).v * (U 1 (.bnd b)).g 0 * e.m.nb b 0 +
          (mu (.bnd b)).v * (U 1 (.bnd b)).g 1 * e.m.nb b 1) * (test 1 (.bnd b)).v)) := by
      intro D hD
      rw [← hD]
      congr 1
      funext b
      ring
    rw [b _ dsurf_add, b _ dbottom_add]
    cases T.hdg
    · simp; ring
    · simp only [if_true, Fin.sum_univ_three]
      have hj : ∀ s i, jumpN (test 2) s i = 0 := fun s i => by rw [h2]; simp [jumpN]
      have hs : ∀ s i, avgStress mu (test 2) s i = 0 := fun s i => by rw [h2]; simp [avgStress]
      simp only [hj, hs, zero_mul, add_zero, mul_zero, sub_zero]
      rw [dS_add]
      simp only [avgStress]
      ring

/-- Horizontal viscous stress on a boundary point, component `i`. -/
def stressAt (mu : Sc e.m) (U : Vc e.m) (i : Fin 3) (b : e.m.B) : ℝ :=
  (mu (.bnd b)).v * ((U i (.bnd b)).g 0 * e.m.nb b 0 + (U i (.bnd b)).g 1 * e.m.nb b 1)

theorem bndH_eq (mu : Sc e.m) (U : Vc e.m) (i : Fin 3) (b : e.m.B) :
    Tracer3.bndH mu (U i) b = stressAt mu U i b := by
  unfold Tracer3.bndH stressAt; ring

/-- C90: where the stress on surface and bottom is zero, for instance where they are level, horizontal viscosity takes
kinetic energy. -/
theorem C90_horizontal_partial (T : Term e) (F : Fields e) (u U : Vc e.m) (mu : Sc e.m) (kappa : ℝ)
    (hU : IsTotal F u U) (hor : U 2 = cst e.m 0) (hmu : F.viscH = some mu)
    (hflat : e.m.Flat) (hvol : ∀ s, 0 < e.m.volP s ∧ 0 < e.m.volM s ∧ 0 < e.m.areaS s)
    (hmuC : ∀ x, 0 ≤ (mu (.cell x)).v) (hmuS : ∀ s, 0 ≤ (mu (.plus s)).v ∧ 0 ≤ (mu (.minus s)).v)
    (hkappa : 0 < kappa) (htrace : ∀ c, Tracer3.TraceBoundH mu (U c) kappa) (hs0 : 0 ≤ T.sipg)
    (halpha : kappa / 2 ≤ T.sipg * Tracer3.dofs (tTerm T))
    (hbnd : ∀ i b, e.face b ≠ .side → stressAt mu U i b = 0) (hdg : T.hdg = true) :
    hViscosity T F u U ≤ 0 := by
  rw [hViscosity_eq T F u U U hU hor]
  have h : ∀ c, Tracer3.hDiffusion (tTerm T) (tFields F U) (U c) (U c) ≤ 0 := fun c =>
    Tracer3.C88_horizontal_partial (tTerm T) (tFields F U) mu (U c) kappa hmu hflat hvol hmuC hmuS hkappa (htrace c)
      hs0 halpha (fun b hb => by rw [bndH_eq]; exact hbnd c b hb) hdg
  linarith [h 0, h 1]

/-- C90: momentum changes through horizontal viscosity by the stress on surface and bottom only; the sides exert none. -/
theorem C90_stress (T : Term e) (F : Fields e) (u U : Vc e.m) (mu : Sc e.m) (i : Fin 3) (hi : i ≠ 2)
    (hU : IsTotal F u U) (hmu : F.viscH = some mu) (hflat : e.m.Flat) (hdg : T.hdg = true) :
    hViscosity T F u (fun j => if j = i then cst e.m 1 else cst e.m 0) =
      e.dbottom (stressAt mu U i) + e.dsurf (stressAt mu U i) := by
  rw [hViscosity_eq T F u U _ hU (by rw [if_neg (fun h => hi h.symm)])]
  have h1 : ∀ c, Tracer3.hDiffusion (tTerm T) (tFields F U) (U c) (cst e.m 1) =
      e.dbottom (stressAt mu U c) + e.dsurf (stressAt mu U c) := by
    intro c
    rw [(Tracer3.C88_mass_partial (tTerm T) (tFields F U) mu (U c) hmu hdg hflat).1]
    have : Tracer3.bndH mu (U c) = stressAt mu U c := funext fun b => bndH_eq mu U c b
    rw [this]
  have h0 : ∀ c, Tracer3.hDiffusion (tTerm T) (tFields F U) (U c) (cst e.m 0) = 0 := by
    intro c
    rw [Tracer3.hDiffusion_eq (tTerm T) (tFields F U) mu (U c) _ hmu hdg]
    simp [jumpN, Tracer3.avgH, Mesh3.dbottom, Mesh3.dsurf, dx_zero, dS_zero]
  have hz : ∀ x : Fin 3, x = 0 ∨ x = 1 ∨ x = 2 := by decide
  rcases hz i with rfl | rfl | rfl
  · simp [h1, h0]
  · simp [h1, h0]
  · exact absurd rfl hi

/-- C90: viscosity does not act on a uniform flow. -/
theorem C90_uniform (T : Term e) (F : Fields e) (u U test : Vc e.m) (k : Fin 3 → ℝ) (hflat : e.m.Flat)
    (hU : IsTotal F u U) (hk : ∀ i, U i = cst e.m (k i)) :
    vViscosity T F U test = 0 ∧ (test 2 = cst e.m 0 → hViscosity T F u test = 0) := by
  constructor
  · rw [vViscosity_eq T F U test U]
    refine Finset.sum_eq_zero fun c _ => ?_
    rw [hk c]
    exact (Tracer3.C86_diffusion _ _ (test c) (k c) hflat).2
  · intro h2
    rw [hViscosity_eq T F u U test hU h2]
    have h : ∀ c, Tracer3.hDiffusion (tTerm T) (tFields F U) (U c) (test c) = 0 := fun c => by
      rw [hk c]
      exact (Tracer3.C86_diffusion _ _ (test c) (k c) hflat).1
    rw [h, h, add_zero]

/-! ### Friction, Coriolis force, wind -/

/-- C90: bottom friction takes kinetic energy, also when the speed in the coefficient is that of an earlier time. -/
theorem C90_friction (T : Term e) (F : Fields e) (u old U V : Vc e.m) (hU : IsTotal F u U) (hV : IsTotal F old V)
    (hfr : T.friction = true) (hdrag : ∀ d, F.drag = some d → ∀ b, 0 ≤ (d (.bnd b)).v) :
    bottomFriction T F u old U ≤ 0 ∧
    ∀ Cd : e.m.B → ℝ, (∀ b, e.face b = .bottom → dragAt T F b = some (Cd b)) →
      bottomFriction T F u old U = -(e.dbottom fun b => Cd b *
        Real.sqrt ((V 0 (.bnd b)).v ^ 2 + (V 1 (.bnd b)).v ^ 2) * ((U 0 (.bnd b)).v ^ 2 + (U 1 (.bnd b)).v ^ 2)) := by
  have h0 : ∀ b, 0 ≤ (dragAt T F b).getD 0 := by
    intro b
    unfold dragAt
    cases hd : F.drag with
    | some d => exact hdrag d hd b
    | none =>
      cases F.roughness with
      | none => exact le_rfl
      | some z0 => exact sq_nonneg _
  unfold bottomFriction
  rw [hU.eq, hV.eq]
  simp only [hfr, if_true, h2]
  constructor
  · refine neg_nonpos.2 (dbottom_nonneg fun b _ => ?_)
    have := h0 b
    have h3 : 0 ≤ (U 0 (.bnd b)).v * (U 0 (.bnd b)).v + (U 1 (.bnd b)).v * (U 1 (.bnd b)).v := by nlinarith
    positivity
  · intro Cd hCd
    congr 1
    refine dbottom_congr fun b hb => ?_
    rw [hCd b hb]
    simp only [Option.getD_some]
    ring

/-- C90: linear drag is minus the coefficient times the square of the speed. -/
theorem C90_drag (F : Fields e) (u U : Vc e.m) (c : Sc e.m) (hU : IsTotal F u U) (hc : F.linDrag = some c) :
    linearDrag F u U = -e.m.dx fun x => (c (.cell x)).v * ∑ i, (U i (.cell x)).v ^ 2 := by
  unfold linearDrag
  rw [hc, hU.eq]
  simp only
  congr 1
  exact dx_congr fun x => by simp only [Fin.sum_univ_three]; ring

/-- C90: the Coriolis force does no work on the deviation from the depth average, and none on the depth average `d`
where `f` and `d` do not depend on depth and the deviation has zero mean over the column: `hmean` says this for
the weight `f d`. -/
theorem C90_coriolis (F : Fields e) (u d : Vc e.m) :
    coriolis F u u = 0 ∧
    ∀ c, F.coriolis = some c →
      (∀ i, i ≠ 2 → ∀ j, j ≠ 2 → e.m.dx (fun x => (c (.cell x)).v * (d i (.cell x)).v * (u j (.cell x)).v) = 0) →
      coriolis F u (fun i => u i + d i) = 0 := by
  constructor
  · unfold coriolis
    cases F.coriolis with
    | none => rfl
    | some c =>
      simp only
      rw [dx_congr (h := fun _ => (0 : ℝ)) (fun x => by ring), dx_zero, neg_zero]
  · intro c hc h
    unfold coriolis
    rw [hc]
    simp only
    have h01 := h 0 (by decide) 1 (by decide)
    have h10 := h 1 (by decide) 0 (by decide)
    have hg : ∀ i p, ((u i + d i : Sc e.m) p).v = (u i p).v + (d i p).v := fun i p => rfl
    have : (e.m.dx fun x => (c (.cell x)).v * (-(u 1 (.cell x)).v * ((u 0 + d 0 : Sc e.m) (.cell x)).v +
        (u 0 (.cell x)).v * ((u 1 + d 1 : Sc e.m) (.cell x)).v)) =
        -1 * e.m.dx (fun x => (c (.cell x)).v * (d 0 (.cell x)).v * (u 1 (.cell x)).v) +
        e.m.dx (fun x => (c (.cell x)).v * (d 1 (.cell x)).v * (u 0 (.cell x)).v) := by
      rw [← dx_smul, ← dx_add]
      exact dx_congr fun x => by rw [hg, hg]; ring
    rw [this, h01, h10]; simp

/-- C90: the wind exerts the stress divided by the reference density on the surface, if vertical viscosity is used, and
is left out otherwise. -/
theorem C90_wind (T : Term e) (F : Fields e) (tau : Vc e.m) (i : Fin 3) (hi : i ≠ 2) (hw : F.wind = some tau)
    (hs : F.source = none) :
    source T F (fun j => if j = i then cst e.m 1 else cst e.m 0) =
      if F.viscV.isSome then e.dsurf fun b => (tau i (.bnd b)).v / T.rho0 else 0 := by
  unfold source windStress
  rw [hw, hs]
  cases F.viscV with
  | none => simp
  | some mu =>
    simp only [Option.isSome_some, if_true, add_zero, h2]
    refine dsurf_congr fun b _ => ?_
    have hz : ∀ x : Fin 3, x = 0 ∨ x = 1 ∨ x = 2 := by decide
    rcases hz i with rfl | rfl | rfl
    · simp
    · simp
    · exact absurd rfl hi

/-- C90: the momentum source acts on all components. -/
theorem C90_source (T : Term e) (F : Fields e) (r test : Vc e.m) (hs : F.source = some r) (hw : F.wind = none) :
    source T F test = e.m.dx fun x => ∑ i, (r i (.cell x)).v * (test i (.cell x)).v := by
  unfold source windStress
  rw [hw, hs]
  cases F.viscV <;> simp

/-! ### The drag coefficient -/

theorem dragDenom_scale (r z0 : ℝ) (hz : 0 < z0) :
    dragDenom (r * z0) z0 = z0 * (-(7 / 4) * r - 3 / 2 + (r + 5 / 2) * Real.log (1 + r)) := by
  unfold dragDenom
  have : (r * z0 + z0) / z0 = 1 + r := by field_simp; ring
  rw [this]; ring

theorem log_four : 1.386 < Real.log 4 := by
  have h : Real.log 4 = 2 * Real.log 2 := by
    rw [show (4 : ℝ) = 2 ^ 2 by norm_num, Real.log_pow]; norm_num
  rw [h]
  have := Real.log_two_gt_d9
  linarith

theorem log_three : Real.log 3 < 10 / 9 := by
  have h : 5 * Real.log 3 < 8 * Real.log 2 := by
    have h1 : Real.log ((3 : ℝ) ^ 5) < Real.log ((2 : ℝ) ^ 8) := Real.log_lt_log (by norm_num) (by norm_num)
    rw [Real.log_pow, Real.log_pow] at h1
    exact_mod_cast h1
  have := Real.log_two_lt_d9
  linarith

/-- C90: for elements higher than three times the roughness length the drag coefficient is positive. -/
theorem C90_roughness (T : Term e) (F : Fields e) (z0 : Sc e.m) (b : e.m.B) (hk : T.kappa ≠ 0)
    (hd : F.drag = none) (hr : F.roughness = some z0) (hz : 0 < (z0 (.bnd b)).v)
    (hh : 3 * (z0 (.bnd b)).v ≤ (T.elemH (.bnd b)).v) :
    0 < dragDenom (T.elemH (.bnd b)).v (z0 (.bnd b)).v ∧ ∃ Cd, dragAt T F b = some Cd ∧ 0 < Cd ∧
      ∀ h z, (T.elemH (.bnd b)).v = h → (z0 (.bnd b)).v = z →
        Cd * (-(7 / 4) * h - (3 / 2) * z + (h + (5 / 2) * z) * Real.log ((h + z) / z)) ^ 2 = (T.kappa * h) ^ 2 := by
  set z := (z0 (.bnd b)).v with hzdef
  set h := (T.elemH (.bnd b)).v with hhdef
  have hpos : 0 < dragDenom h z := by
    obtain ⟨r, hr⟩ : ∃ r, h = r * z := ⟨h / z, by field_simp⟩
    have hr3 : 3 ≤ r := by
      rw [hr] at hh
      exact le_of_mul_le_mul_right hh hz
    rw [hr, dragDenom_scale r z hz]
    refine mul_pos hz ?_
    have h1 : Real.log (1 + r) = Real.log 4 + Real.log ((1 + r) / 4) := by
      rw [← Real.log_mul (by norm_num) (by positivity)]
      congr 1; ring
    have h2 : 1 - 4 / (1 + r) ≤ Real.log ((1 + r) / 4) := by
      have := Real.one_sub_inv_le_log_of_pos (x := (1 + r) / 4) (by positivity)
      rw [inv_div] at this
      exact this
    have h3 := log_four
    have h4 : 2.386 - 4 / (1 + r) ≤ Real.log (1 + r) := by rw [h1]; linarith
    have h5 := mul_le_mul_of_nonneg_left h4 (by linarith : (0 : ℝ) ≤ r + 5 / 2)
    have h6 : (r + 5 / 2) * (4 / (1 + r)) ≤ 5.5 := by
      rw [mul_div_assoc', div_le_iff₀ (by linarith)]
      nlinarith
    nlinarith
  refine ⟨hpos, _, by unfold dragAt; rw [hd, hr], ?_, ?_⟩
  · have hh0 : 0 < h := by linarith
    have : T.kappa * h / dragDenom h z ≠ 0 := div_ne_zero (mul_ne_zero hk hh0.ne') hpos.ne'
    positivity
  · rintro _ _ rfl rfl
    change (T.kappa * h / dragDenom h z) ^ 2 * dragDenom h z ^ 2 = _
    rw [← mul_pow, div_mul_cancel₀ _ hpos.ne']

/-- For every roughness length there is an element height between two and three times this length at which the
denominator of the drag coefficient vanishes: the code divides by zero there. Nearby the coefficient exceeds every
bound. -/
theorem C90_roughness_violated (z0 : ℝ) (hz : 0 < z0) :
    (∃ h, 2 * z0 < h ∧ h < 3 * z0 ∧ dragDenom h z0 = 0) ∧
      ∀ M : ℝ, ∃ h, 2 * z0 < h ∧ h < 3 * z0 ∧ M < ((2 / 5) * h / dragDenom h z0) ^ 2 := by
  have hcont : ContinuousOn (fun r : ℝ => -(7 / 4) * r - 3 / 2 + (r + 5 / 2) * Real.log (1 + r)) (Set.Icc 2 3) := by
    refine ContinuousOn.add (by fun_prop) (ContinuousOn.mul (by fun_prop) ?_)
    refine ContinuousOn.log (by fun_prop) fun x hx => ?_
    have := hx.1
    positivity
  set f : ℝ → ℝ := fun r => -(7 / 4) * r - 3 / 2 + (r + 5 / 2) * Real.log (1 + r) with hf
  have f2 : f 2 < 0 := by
    have := log_three
    simp only [hf]
    norm_num
    linarith
  have f3 : 1 / 4 < f 3 := by
    have := log_four
    simp only [hf]
    norm_num
    linarith
  have key : ∀ y, 0 ≤ y → y ≤ 1 / 4 → ∃ r, 2 < r ∧ r < 3 ∧ dragDenom (r * z0) z0 = z0 * y := by
    intro y hy hy4
    obtain ⟨r, ⟨hr1, hr2⟩, hr⟩ := intermediate_value_Ioo (by norm_num : (2 : ℝ) ≤ 3) hcont
      (show y ∈ Set.Ioo (f 2) (f 3) from ⟨by linarith, by linarith⟩)
    exact ⟨r, hr1, hr2, by rw [dragDenom_scale r z0 hz, ← hr]⟩
  constructor
  · obtain ⟨r, h2, h3, h⟩ := key 0 le_rfl (by norm_num)
    exact ⟨r * z0, by nlinarith, by nlinarith, by rw [h, mul_zero]⟩
  · intro M
    have hy : 0 < 1 / (4 + |M|) := by positivity
    obtain ⟨r, h2, h3, h⟩ := key (1 / (4 + |M|)) hy.le
      (by rw [div_le_div_iff₀ (by positivity) (by norm_num)]; linarith [abs_nonneg M])
    refine ⟨r * z0, by nlinarith, by nlinarith, ?_⟩
    rw [h]
    have h4 : 2 / 5 * (r * z0) / (z0 * (1 / (4 + |M|))) = 2 / 5 * r * (4 + |M|) := by field_simp
    rw [h4]
    have h5 := le_abs_self M
    have h6 := abs_nonneg M
    have h7 : 4 / 5 * (4 + |M|) ≤ 2 / 5 * r * (4 + |M|) := by nlinarith
    nlinarith

end Verif.Mom3
