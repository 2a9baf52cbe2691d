import Verif.Smag.Model
import Verif.Ext.Props
import Verif.Swe.Lemmas

/-!
C94: Smagorinsky viscosity.
-/

namespace Verif.Smag

open Verif.Dg Verif.Ext

variable {e : Mesh3}

/-- The vector field with only the component `ix`. -/
noncomputable def along (ix : Fin 3) (f : Sc e.m) : Vc e.m := fun i => if i = ix then f else cst e.m 0

/-- The flux of `f` in direction `ix` through the facets that are not vertical. -/
def through (ix : Fin 3) (f : Sc e.m) : ℝ :=
  (e.dSh fun s => jumpN f s ix) + (e.dsurf fun b => (f (.bnd b)).v * e.m.nb b ix) +
    e.dbottom fun b => (f (.bnd b)).v * e.m.nb b ix

theorem sum_along (ix : Fin 3) (f : Sc e.m) (p : Pt e.m) (n : Fin 3 → ℝ) :
    ∑ i, (along ix f i p).v * n i = (f p).v * n ix := by
  rw [Finset.sum_eq_single ix]
  · simp [along]
  · intro i _ hi; simp [along, hi]
  · simp

theorem div_along (ix : Fin 3) (f : Sc e.m) (p : Pt e.m) : div (along ix f) p = (f p).g ix := by
  unfold div
  rw [Finset.sum_eq_single ix]
  · simp [along]
  · intro i _ hi; simp [along, hi]
  · simp

theorem divExact_along (ix : Fin 3) (f : Sc e.m) (h : DivExact e.m (along ix f)) :
    (e.m.dx fun x => (f (.cell x)).g ix) = (e.dSv fun s => jumpN f s ix) +
      (∑ b, e.m.wB b * if e.face b = .side then (f (.bnd b)).v * e.m.nb b ix else 0) + through ix f := by
  unfold DivExact at h
  have e1 : (e.m.dx fun c => div (along ix f) (.cell c)) = e.m.dx fun x => (f (.cell x)).g ix :=
    dx_congr fun x => div_along ix f _
  have e2 : (e.m.dS fun s => jumpV (along ix f) s) = e.m.dS fun s => jumpN f s ix :=
    dS_congr fun s => by unfold jumpV jumpN; rw [sum_along, sum_along]
  have e3 : (∑ b, e.m.wB b * normalAt (along ix f) b) = ∑ b, e.m.wB b * ((f (.bnd b)).v * e.m.nb b ix) :=
    dB_congr fun b => by unfold normalAt; rw [sum_along]
  have e4 := sideLoop_eq (e := e) fun _ b => (f (.bnd b)).v * e.m.nb b ix
  rw [e1, e2, e3, boundary_split, ← dSh_add_dSv, e4] at h
  rw [h]; unfold through; ring

/-- C94: the weak gradient is the gradient inside the cells, minus jumps between columns, minus the flux through the
facets that are not vertical.  The latter is left out in the code. -/
theorem C94_gradient (u phi : Sc e.m) (ix : Fin 3) (hflat : e.m.Flat) (hd : DivExact e.m (along ix (u * phi))) :
    gradRight u ix phi = (e.m.dx fun x => (u (.cell x)).g ix * (phi (.cell x)).v) -
      (e.dSv fun s => jumpN u s ix * avg phi s) - through ix (u * phi) := by
  have h := divExact_along ix (u * phi) hd
  have e1 : (e.m.dx fun x => ((u * phi) (.cell x)).g ix) =
      (e.m.dx fun x => (u (.cell x)).g ix * (phi (.cell x)).v) +
        e.m.dx fun x => (phi (.cell x)).g ix * (u (.cell x)).v := by
    rw [← dx_add]
    exact dx_congr fun x => by simp only [Pi.mul_apply, Jet.mul_g]; ring
  have e2 : (e.dSv fun s => jumpN (u * phi) s ix) =
      (e.dSv fun s => avg u s * jumpN phi s ix) + e.dSv fun s => jumpN u s ix * avg phi s := by
    rw [← dSv_add]
    refine dSv_congr fun s _ => ?_
    have := hflat s ix
    unfold avg jumpN
    simp only [Pi.mul_apply, Jet.mul_v]
    rw [this]; ring
  have e3 : (∑ b, e.m.wB b * if e.face b = .side then ((u * phi) (.bnd b)).v * e.m.nb b ix else 0) =
      ∑ b, e.m.wB b * if e.face b = .side then (u (.bnd b)).v * ((phi (.bnd b)).v * e.m.nb b ix) else 0 :=
    dB_congr fun b => by simp only [Pi.mul_apply, Jet.mul_v, mul_assoc]
  rw [e1, e2, e3] at h
  unfold gradRight
  linarith

/-- The layers are level in direction `ix`. -/
def Level (e : Mesh3) (ix : Fin 3) : Prop :=
  (∀ s, e.hor s = true → e.m.np s ix = 0 ∧ e.m.nm s ix = 0) ∧ ∀ b, e.face b ≠ .side → e.m.nb b ix = 0

theorem through_level (ix : Fin 3) (f : Sc e.m) (h : Level e ix) : through ix f = 0 := by
  unfold through
  have h1 : (e.dSh fun s => jumpN f s ix) = e.dSh fun _ => (0 : ℝ) * 0 := dSh_congr fun s hs => by
    unfold jumpN; rw [(h.1 s hs).1, (h.1 s hs).2]; ring
  have h2 : (e.dsurf fun b => (f (.bnd b)).v * e.m.nb b ix) = e.dsurf fun _ => (0 : ℝ) * 0 :=
    dsurf_congr fun b hb => by rw [h.2 b (by rw [hb]; decide)]; ring
  have h3 : (e.dbottom fun b => (f (.bnd b)).v * e.m.nb b ix) = e.dbottom fun _ => (0 : ℝ) * 0 :=
    dbottom_congr fun b hb => by rw [h.2 b (by rw [hb]; decide)]; ring
  rw [h1, h2, h3, dSh_smul, dsurf_smul, dbottom_smul]; ring

/-- C94: where the layers are level, the gradient of a velocity without jumps between the columns is the exact one. -/
theorem C94_level (u G phi : Sc e.m) (ix : Fin 3) (hflat : e.m.Flat) (hd : DivExact e.m (along ix (u * phi)))
    (hl : Level e ix) (hG : ∀ x, (G (.cell x)).v = (u (.cell x)).g ix) (hc : ∀ s, jump u s = 0) : WeakGrad u ix G phi := by
  have e1 : (e.dSv fun s => jumpN u s ix * avg phi s) = e.dSv fun _ => (0 : ℝ) * 0 := dSv_congr fun s _ => by
    have h1 := hflat s ix
    have h2 := hc s
    unfold jump at h2
    unfold jumpN
    rw [h1]
    linear_combination (e.m.np s ix * avg phi s) * h2
  unfold WeakGrad
  rw [C94_gradient u phi ix hflat hd, through_level ix _ hl, e1, dSv_smul]
  rw [zero_mul, sub_zero, sub_zero]
  exact dx_congr fun x => by rw [hG]

theorem cst_mul_v (k : ℝ) (phi : Sc e.m) (p : Pt e.m) : ((cst e.m k * phi) p).v = k * (phi p).v := by
  simp [Pi.mul_apply]

/-- C94 violated: a uniform velocity `k` has a gradient wherever the layers, the surface or the bottom slope: tested with
`phi` it is `-k` times the flux of `phi` through these facets. -/
theorem C94_slope_violated (k : ℝ) (G phi : Sc e.m) (ix : Fin 3) (hflat : e.m.Flat)
    (hd : DivExact e.m (along ix (cst e.m k * phi))) (hk : k ≠ 0) (ht : through ix phi ≠ 0)
    (hG : WeakGrad (cst e.m k) ix G phi) : (e.m.dx fun x => (G (.cell x)).v * (phi (.cell x)).v) = -(k * through ix phi) ∧
      ∃ x, (G (.cell x)).v ≠ 0 := by
  have h1 : through ix (cst e.m k * phi) = k * through ix phi := by
    unfold through jumpN
    simp only [cst_mul_v]
    rw [show (fun s => k * (phi (.plus s)).v * e.m.np s ix + k * (phi (.minus s)).v * e.m.nm s ix) =
      fun s => k * ((phi (.plus s)).v * e.m.np s ix + (phi (.minus s)).v * e.m.nm s ix) from by funext s; ring,
      show (fun b => k * (phi (.bnd b)).v * e.m.nb b ix) = fun b => k * ((phi (.bnd b)).v * e.m.nb b ix) from by
        funext s; ring, dSh_smul, dsurf_smul, dbottom_smul]
    ring
  have h2 : (e.m.dx fun x => ((cst e.m k) (.cell x)).g ix * (phi (.cell x)).v) = 0 := by
    rw [show (fun x => ((cst e.m k) (.cell x)).g ix * (phi (.cell x)).v) = fun _ => 0 from by funext x; simp, dx_zero]
  have h3 : (e.dSv fun s => jumpN (cst e.m k) s ix * avg phi s) = 0 := by
    rw [dSv_congr (h := fun _ => (0 : ℝ) * 0) fun s _ => by
      unfold jumpN; rw [hflat s ix]; simp, dSv_smul, zero_mul]
  have key : (e.m.dx fun x => (G (.cell x)).v * (phi (.cell x)).v) = -(k * through ix phi) := by
    unfold WeakGrad at hG
    rw [hG, C94_gradient _ _ ix hflat hd, h1, h2, h3]; ring
  refine ⟨key, ?_⟩
  by_contra hne
  push Not at hne
  rw [show (fun x => (G (.cell x)).v * (phi (.cell x)).v) = fun _ => 0 from by funext x; rw [hne]; ring, dx_zero] at key
  exact mul_ne_zero hk ht (by linarith)

/-- C94 violated: the viscosity is computed from the deviation from the depth average.  However strongly a flow that is
the same at all depths is strained, zero gradients solve the weak problems, so that the viscosity is zero before
clipping. -/
theorem C94_deviation_violated (u G phi : Sc e.m) (ix : Fin 3) (hG : ∀ x, (G (.cell x)).v = 0) :
    WeakGrad (seen u u) ix G phi := by
  unfold WeakGrad gradRight seen avg
  have h0 : ∀ p, (u p - u p).v = 0 := fun p => by simp
  simp only [h0]
  rw [show (fun x => (G (.cell x)).v * (phi (.cell x)).v) = fun _ => 0 from by funext x; rw [hG]; ring, dx_zero,
    show (fun x => (phi (.cell x)).g ix * (0 : ℝ)) = fun _ => 0 from by funext x; ring, dx_zero,
    dSv_congr (h := fun _ => (0 : ℝ) * 0) fun s _ => by ring, dSv_smul]
  simp

/-- The gradient in coordinates turned by the angle with cosine `c` and sine `s`: `R G Rᵀ`. -/
def Grad.turn (g : Grad) (c s : ℝ) : Grad where
  ux := c * (c * g.ux - s * g.vx) - s * (c * g.uy - s * g.vy)
  uy := s * (c * g.ux - s * g.vx) + c * (c * g.uy - s * g.vy)
  vx := c * (s * g.ux + c * g.vx) - s * (s * g.uy + c * g.vy)
  vy := s * (s * g.ux + c * g.vx) + c * (s * g.uy + c * g.vy)

/-- C94: the viscosity does not depend on the direction of the axes. -/
theorem C94_turn (cs h : ℝ) (g : Grad) (c s : ℝ) (hcs : c ^ 2 + s ^ 2 = 1) : nu cs h (g.turn c s) = nu cs h g := by
  unfold nu
  congr 2
  unfold Grad.dt Grad.ds Grad.turn
  simp only
  have : (c * (c * g.ux - s * g.vx) - s * (c * g.uy - s * g.vy) - (s * (s * g.ux + c * g.vx) + c * (s * g.uy + c * g.vy))) ^ 2 +
      (s * (c * g.ux - s * g.vx) + c * (c * g.uy - s * g.vy) + (c * (s * g.ux + c * g.vx) - s * (s * g.uy + c * g.vy))) ^ 2 =
      (c ^ 2 + s ^ 2) ^ 2 * ((g.ux - g.vy) ^ 2 + (g.uy + g.vx) ^ 2) := by ring
  rw [this, hcs]; ring

/-- C94: the viscosity is nonnegative, and zero exactly for flows that only turn and expand. -/
theorem C94_zero (cs h : ℝ) (g : Grad) (hc : cs ≠ 0) (hh : h ≠ 0) :
    0 ≤ nu cs h g ∧ (nu cs h g = 0 ↔ g.ux = g.vy ∧ g.uy = -g.vx) := by
  have hp : 0 < cs ^ 2 * h ^ 2 := by positivity
  refine ⟨mul_nonneg hp.le (Real.sqrt_nonneg _), ?_⟩
  unfold nu
  rw [mul_eq_zero, or_iff_right hp.ne', Real.sqrt_eq_zero (by positivity)]
  unfold Grad.dt Grad.ds
  constructor
  · intro he
    have h1 : (g.ux - g.vy) ^ 2 = 0 := by nlinarith [sq_nonneg (g.ux - g.vy), sq_nonneg (g.uy + g.vx)]
    have h2 : (g.uy + g.vx) ^ 2 = 0 := by nlinarith [sq_nonneg (g.ux - g.vy), sq_nonneg (g.uy + g.vx)]
    have h3 := pow_eq_zero_iff (two_ne_zero) |>.1 h1
    have h4 := pow_eq_zero_iff (two_ne_zero) |>.1 h2
    constructor <;> linarith
  · rintro ⟨h1, h2⟩
    rw [h1, h2]; ring

/-- C94: pure shear `u_y = a` gives `(C_s Δx)² |a|`. -/
theorem C94_shear (cs h a : ℝ) : nu cs h ⟨0, a, 0, 0⟩ = (cs * h) ^ 2 * |a| := by
  unfold nu Grad.dt Grad.ds
  rw [show ((⟨0, a, 0, 0⟩ : Grad).ux - (⟨0, a, 0, 0⟩ : Grad).vy) ^ 2 + ((⟨0, a, 0, 0⟩ : Grad).uy +
    (⟨0, a, 0, 0⟩ : Grad).vx) ^ 2 = a ^ 2 by simp, Real.sqrt_sq_eq_abs]
  ring

/-- C94: at the nodes the viscosity lies between the bounds and is unchanged where it did already; if the bounds
contradict each other, the upper one is used. -/
theorem C94_clip (lo hi x : ℝ) : (lo ≤ hi → lo ≤ clip lo hi x) ∧ clip lo hi x ≤ hi ∧
    (lo ≤ x → x ≤ hi → clip lo hi x = x) ∧ (hi < lo → clip lo hi x = hi) := by
  unfold clip
  dsimp only
  refine ⟨fun h => ?_, ?_, fun h1 h2 => ?_, fun h => ?_⟩
  · by_cases h1 : x < lo
    · rw [if_pos h1, if_neg (by linarith)]
    · rw [if_neg h1]; split <;> linarith
  · by_cases h1 : x < lo
    · rw [if_pos h1]; split <;> linarith
    · rw [if_neg h1]; split <;> linarith
  · rw [if_neg (show ¬ x < lo by linarith), if_neg (by linarith)]
  · by_cases h1 : x < lo
    · rw [if_pos h1, if_pos h]
    · rw [if_neg h1, if_pos (by linarith)]

/-- C94: with the bound of the solver the explicit diffusion number `ν Δt / Δx²` is at most 1/60, and at most
1/(60 p (p + 1)) for degree `p`. -/
theorem C94_stable (p : ℕ) (lo dt h x : ℝ) (hdt : 0 < dt) (hh : 0 < h) :
    clip lo (maxHDiff p dt h) x * dt / h ^ 2 ≤ 1 / 60 ∧
      (0 < p → clip lo (maxHDiff p dt h) x * dt / h ^ 2 ≤ 1 / (60 * (p * (p + 1)))) := by
  have h1 := (C94_clip lo (maxHDiff p dt h) x).2.1
  have hm : 1 ≤ max ((p : ℝ) * (p + 1)) 1 := le_max_right _ _
  have key : clip lo (maxHDiff p dt h) x * dt / h ^ 2 ≤ 1 / 60 / max ((p : ℝ) * (p + 1)) 1 := by
    rw [div_le_iff₀ (by positivity)]
    calc clip lo (maxHDiff p dt h) x * dt ≤ maxHDiff p dt h * dt := mul_le_mul_of_nonneg_right h1 hdt.le
      _ = 1 / 60 / max ((p : ℝ) * (p + 1)) 1 * h ^ 2 := by unfold maxHDiff; field_simp
  refine ⟨key.trans ?_, fun hp => key.trans (le_of_eq ?_)⟩
  · exact div_le_self (by norm_num) hm
  · have : (1 : ℝ) ≤ p := by exact_mod_cast hp
    rw [max_eq_left (by nlinarith)]
    field_simp

/-- The layers of the tank are level in the second direction. -/
example : Level tank 1 := by
  refine ⟨fun s _ => ?_, fun b hb => ?_⟩
  · simp [tank, tankM]
  · cases b <;> simp_all [tank, tankM, tkN, tkFace]

/-- The hypotheses of `C94_clip`. -/
example : clip 1 10 5 = 5 ∧ clip 1 10 0 = 1 ∧ clip 1 10 20 = 10 ∧ clip 3 2 5 = 2 := by
  unfold clip; norm_num

/-- The uniform flow in the tank with the sloping bottom: in total the gradient is the difference in depth between
the sides, minus one. -/
example (G : Sc tank.m) (h : WeakGrad (cst tank.m 1) 0 G (cst tank.m 1)) :
    (tank.m.dx fun x => (G (.cell x)).v * 1) = -1 := by
  have hd : DivExact tank.m (along 0 (cst tank.m 1 * cst tank.m 1)) := by
    have : (along 0 (cst tank.m 1 * cst tank.m 1) : Vc tank.m) =
        fun i => tankField ⟨if i = 0 then 1 else 0, 0, 0, 0⟩ ⟨if i = 0 then 1 else 0, 0, 0, 0⟩ := by
      funext i
      rw [← tankField_cst]
      unfold along
      split
      · funext p
        refine Jet.ext ?_ (funext fun j => ?_)
        · simp [Pi.mul_apply]
        · simp [Pi.mul_apply]
      · rfl
    rw [this]; exact tank_divExact _ _
  have ht : through 0 (cst tank.m 1) = 1 := by
    unfold through jumpN
    refine (congrArg₂ (· + ·) (congrArg₂ (· + ·) (tank_dSh _) (tank_dsurf _)) (tank_dbottom _)).trans ?_
    simp [tank, tankM, tkN, cst]
  have := (C94_slope_violated 1 G (cst tank.m 1) 0 tank_flat hd one_ne_zero (by rw [ht]; exact one_ne_zero) h).1
  rw [ht] at this
  simpa using this

end Verif.Smag
