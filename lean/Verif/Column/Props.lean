import Verif.Column.Model
import Verif.Ext.Props
import Verif.Swe.Lemmas

/-!
C92: vertical integrals and the baroclinic head.
-/

namespace Verif.Column

open Verif.Dg Verif.Ext

variable {e : Mesh3}

/-- Facets of the sides and between columns are vertical. -/
def Upright (e : Mesh3) : Prop :=
  (∀ s, e.hor s = false → e.m.np s 2 = 0 ∧ e.m.nm s 2 = 0) ∧ ∀ b, e.face b = .side → e.m.nb b 2 = 0

/-- The vector field with only a vertical component. -/
noncomputable def upwards (f : Sc e.m) : Vc e.m := fun i => if i = 2 then f else cst e.m 0

/-- `U` solves the equation of the integrator for the integrand with values `f`, tested with `phi`. -/
def Integrates (o : Opts) (f : Sc e.m) (bndValue U phi : Sc e.m) : Prop := left o U phi = right o f bndValue phi

/-- The face where the integration begins. -/
def start (o : Opts) : Face := if o.up then .bottom else .surf

theorem divExact_upwards (f : Sc e.m) (hu : Upright e) (h : DivExact e.m (upwards f)) :
    (e.m.dx fun x => (f (.cell x)).g 2) =
      (e.dSh fun s => jumpN f s 2) + (e.dsurf fun b => (f (.bnd b)).v * e.m.nb b 2) +
        e.dbottom fun b => (f (.bnd b)).v * e.m.nb b 2 := by
  unfold DivExact at h
  have e1 : (e.m.dx fun c => div (upwards f) (.cell c)) = e.m.dx fun x => (f (.cell x)).g 2 :=
    dx_congr fun x => by unfold div upwards; rw [Fin.sum_univ_three]; simp
  have e2 : (e.m.dS fun s => jumpV (upwards f) s) = e.dSh fun s => jumpN f s 2 := by
    rw [← dSh_add_dSv]
    have h0 : (e.dSv fun s => jumpV (upwards f) s) = e.dSv fun _ => (0 : ℝ) * 0 := by
      refine dSv_congr fun s hs => ?_
      obtain ⟨h1, h2⟩ := hu.1 s hs
      unfold jumpV upwards
      rw [Fin.sum_univ_three, Fin.sum_univ_three]
      simp [h1, h2]
    rw [h0, dSv_smul, zero_mul, add_zero]
    refine dSh_congr fun s _ => ?_
    unfold jumpV upwards jumpN
    rw [Fin.sum_univ_three, Fin.sum_univ_three]
    simp
  have e3 : (∑ b, e.m.wB b * normalAt (upwards f) b) = ∑ b, e.m.wB b * ((f (.bnd b)).v * e.m.nb b 2) := by
    refine dB_congr fun b => ?_
    unfold normalAt upwards
    rw [Fin.sum_univ_three]
    simp
  have e4 : (e.sideLoop fun _ b => (f (.bnd b)).v * e.m.nb b 2) = 0 := by
    rw [sideLoop_eq, dB_congr (g := fun _ => (0 : ℝ)) fun b => ?_, Swe.dB_zero]
    split
    · rename_i hb; rw [hu.2 b hb, mul_zero]
    · rfl
  rw [e1, e2, e3, boundary_split, e4] at h
  rw [h]; ring

theorem mul_g2 (u phi : Sc e.m) (x : e.m.C) : ((u * phi) (.cell x)).g 2 =
    (phi (.cell x)).g 2 * (u (.cell x)).v + (u (.cell x)).g 2 * (phi (.cell x)).v := by
  simp only [Pi.mul_apply, Jet.mul_g]; ring

/-- C92: the exact integral solves the equation: its vertical derivative is the integrand, it is continuous from layer
to layer, and where the integration begins it is minus the boundary value, hence zero by default. -/
theorem C92_exact (o : Opts) (f bndValue U phi : Sc e.m) (hflat : e.m.Flat) (hu : Upright e)
    (hex : DivExact e.m (upwards (U * phi)))
    (hder : ∀ x, (U (.cell x)).g 2 = (f (.cell x)).v)
    (hcont : ∀ s, e.hor s = true → (U (.plus s)).v = (U (.minus s)).v)
    (hstart : ∀ b, e.face b = start o → (U (.bnd b)).v = -(bndValue (.bnd b)).v)
    (hcg : o.dg = false → ∀ s, e.hor s = true → (phi (.plus s)).v = (phi (.minus s)).v) :
    Integrates o f bndValue U phi := by
  have h := divExact_upwards _ hu hex
  have e1 : (e.m.dx fun x => ((U * phi) (.cell x)).g 2) =
      (e.m.dx fun x => (phi (.cell x)).g 2 * (U (.cell x)).v) +
        e.m.dx fun x => (f (.cell x)).v * (phi (.cell x)).v := by
    rw [← dx_add]
    exact dx_congr fun x => by rw [mul_g2, hder]
  have e2 : (e.dSh fun s => jumpN (U * phi) s 2) = if o.dg then e.dSh fun s => upValue o U s * jumpN phi s 2 else 0 := by
    cases hd : o.dg
    · simp only [Bool.false_eq_true, if_false]
      have : (e.dSh fun s => jumpN (U * phi) s 2) = e.dSh fun _ => (0 : ℝ) * 0 := by
        refine dSh_congr fun s hs => ?_
        unfold jumpN
        simp only [Pi.mul_apply, Jet.mul_v]
        rw [hcont s hs, hcg hd s hs, hflat s 2]; ring
      rw [this, dSh_smul, zero_mul]
    · simp only [if_true]
      refine dSh_congr fun s hs => ?_
      unfold jumpN upValue
      simp only [Pi.mul_apply, Jet.mul_v]
      split
      · rw [hcont s hs]; ring
      · rw [hcont s hs]; ring
  have e3 : ∀ (D : (e.m.B → ℝ) → ℝ), D (fun b => ((U * phi) (.bnd b)).v * e.m.nb b 2) =
      D fun b => e.m.nb b 2 * ((U (.bnd b)).v * (phi (.bnd b)).v) := by
    intro D; congr 1; funext b; simp only [Pi.mul_apply, Jet.mul_v]; ring
  rw [e1, e2, e3 e.dsurf, e3 e.dbottom] at h
  unfold Integrates left right
  unfold start at hstart
  cases hup : o.up
  · rw [hup] at hstart
    simp only [Bool.false_eq_true, if_false] at hstart ⊢
    have e4 : (e.dsurf fun b => e.m.nb b 2 * ((U (.bnd b)).v * (phi (.bnd b)).v)) =
        -1 * e.dsurf fun b => e.m.nb b 2 * ((bndValue (.bnd b)).v * (phi (.bnd b)).v) := by
      rw [← dsurf_smul]
      exact dsurf_congr fun b hb => by rw [hstart b hb]; ring
    rw [e4] at h
    linarith
  · rw [hup] at hstart
    simp only [if_true] at hstart ⊢
    have e4 : (e.dbottom fun b => e.m.nb b 2 * ((U (.bnd b)).v * (phi (.bnd b)).v)) =
        -1 * e.dbottom fun b => e.m.nb b 2 * ((bndValue (.bnd b)).v * (phi (.bnd b)).v) := by
      rw [← dbottom_smul]
      exact dbottom_congr fun b hb => by rw [hstart b hb]; ring
    rw [e4] at h
    linarith

/-- C92: whatever solves the equation has the right total: on the surface, summed over a set of columns, the integral
from the bottom is the integral of the integrand over these columns, and on the bottom the one from the surface is minus
this integral (the normal points down there). `phi` selects the columns. -/
theorem C92_total (o : Opts) (f U phi : Sc e.m) (hflat : e.m.Flat)
    (hg : ∀ x, (phi (.cell x)).g 2 = 0)
    (hj : ∀ s, e.hor s = true → (phi (.plus s)).v = (phi (.minus s)).v)
    (h : Integrates o f (cst e.m 0) U phi) :
    (if o.up then e.dsurf fun b => (U (.bnd b)).v * (phi (.bnd b)).v * e.m.nb b 2
      else e.dbottom fun b => (U (.bnd b)).v * (phi (.bnd b)).v * e.m.nb b 2) =
      e.m.dx fun x => (f (.cell x)).v * (phi (.cell x)).v := by
  unfold Integrates left right at h
  have e1 : (e.m.dx fun x => (phi (.cell x)).g 2 * (U (.cell x)).v) = 0 := by
    rw [dx_congr (h := fun _ => (0 : ℝ)) fun x => by rw [hg]; ring]; exact dx_zero
  have e2 : (e.dSh fun s => upValue o U s * jumpN phi s 2) = 0 := by
    have : (e.dSh fun s => upValue o U s * jumpN phi s 2) = e.dSh fun _ => (0 : ℝ) * 0 := by
      refine dSh_congr fun s hs => ?_
      unfold jumpN
      rw [hj s hs, hflat s 2]; ring
    rw [this, dSh_smul, zero_mul]
  have e3 : e.dsurf (fun b => e.m.nb b 2 * (((cst e.m 0 : Sc e.m) (.bnd b)).v * (phi (.bnd b)).v)) = 0 := by
    have : e.dsurf (fun b => e.m.nb b 2 * (((cst e.m 0 : Sc e.m) (.bnd b)).v * (phi (.bnd b)).v)) =
        e.dsurf fun _ => (0 : ℝ) * 0 := dsurf_congr fun b _ => by simp
    rw [this, dsurf_smul, zero_mul]
  have e4 : e.dbottom (fun b => e.m.nb b 2 * (((cst e.m 0 : Sc e.m) (.bnd b)).v * (phi (.bnd b)).v)) = 0 := by
    have : e.dbottom (fun b => e.m.nb b 2 * (((cst e.m 0 : Sc e.m) (.bnd b)).v * (phi (.bnd b)).v)) =
        e.dbottom fun _ => (0 : ℝ) * 0 := dbottom_congr fun b _ => by simp
    rw [this, dbottom_smul, zero_mul]
  dsimp only at h
  rw [e1, e2, e3, e4] at h
  have e5 : ∀ (D : (e.m.B → ℝ) → ℝ), D (fun b => (U (.bnd b)).v * (phi (.bnd b)).v * e.m.nb b 2) =
      D fun b => e.m.nb b 2 * ((U (.bnd b)).v * (phi (.bnd b)).v) := by
    intro D; congr 1; funext b; ring
  rw [e5 e.dsurf, e5 e.dbottom]
  cases hup : o.up <;> simp [hup] at h ⊢ <;> linarith

/-- Heights of the jumps of `U` between layers, weighted with the horizontal area, and its size on surface and bottom. -/
def variation (U : Sc e.m) : ℝ :=
  (e.dSh fun s => |e.m.np s 2| * ((U (.plus s)).v - (U (.minus s)).v) ^ 2) +
    (e.dsurf fun b => |e.m.nb b 2| * (U (.bnd b)).v ^ 2) + e.dbottom fun b => |e.m.nb b 2| * (U (.bnd b)).v ^ 2

/-- The plus side of facets between layers is below, surface normals point up and bottom normals down. -/
def Oriented (e : Mesh3) : Prop :=
  (∀ s, e.hor s = true → 0 ≤ e.m.np s 2) ∧ (∀ b, e.face b = .surf → 0 ≤ e.m.nb b 2) ∧
    ∀ b, e.face b = .bottom → e.m.nb b 2 ≤ 0

/-- C92: the bilinear form is stable: tested with `U` itself it is half the variation, up to the sign of the direction. -/
theorem C92_stable (o : Opts) (U : Sc e.m) (hflat : e.m.Flat) (hu : Upright e) (ho : Oriented e) (hdg : o.dg = true)
    (hex : DivExact e.m (upwards (U * U))) :
    left o U U = (if o.up then 1 / 2 else -(1 / 2)) * variation U := by
  have h := divExact_upwards _ hu hex
  have e1 : (e.m.dx fun x => ((U * U) (.cell x)).g 2) = 2 * e.m.dx fun x => (U (.cell x)).g 2 * (U (.cell x)).v := by
    rw [← dx_smul]
    exact dx_congr fun x => by rw [mul_g2]; ring
  have e2 : (e.dSh fun s => jumpN (U * U) s 2) =
      e.dSh fun s => e.m.np s 2 * ((U (.plus s)).v ^ 2 - (U (.minus s)).v ^ 2) := by
    refine dSh_congr fun s _ => ?_
    unfold jumpN
    simp only [Pi.mul_apply, Jet.mul_v]
    rw [hflat s 2]; ring
  have e3 : (e.dsurf fun b => ((U * U) (.bnd b)).v * e.m.nb b 2) = e.dsurf fun b => |e.m.nb b 2| * (U (.bnd b)).v ^ 2 := by
    refine dsurf_congr fun b hb => ?_
    rw [abs_of_nonneg (ho.2.1 b hb)]
    simp only [Pi.mul_apply, Jet.mul_v]; ring
  have e4 : (e.dbottom fun b => ((U * U) (.bnd b)).v * e.m.nb b 2) =
      -1 * e.dbottom fun b => |e.m.nb b 2| * (U (.bnd b)).v ^ 2 := by
    rw [← dbottom_smul]
    refine dbottom_congr fun b hb => ?_
    rw [abs_of_nonpos (ho.2.2 b hb)]
    simp only [Pi.mul_apply, Jet.mul_v]; ring
  rw [e1, e2, e3, e4] at h
  have f3 : (e.dsurf fun b => e.m.nb b 2 * ((U (.bnd b)).v * (U (.bnd b)).v)) =
      e.dsurf fun b => |e.m.nb b 2| * (U (.bnd b)).v ^ 2 := by
    refine dsurf_congr fun b hb => ?_
    rw [abs_of_nonneg (ho.2.1 b hb)]; ring
  have f4 : (e.dbottom fun b => e.m.nb b 2 * ((U (.bnd b)).v * (U (.bnd b)).v)) =
      -1 * e.dbottom fun b => |e.m.nb b 2| * (U (.bnd b)).v ^ 2 := by
    rw [← dbottom_smul]
    refine dbottom_congr fun b hb => ?_
    rw [abs_of_nonpos (ho.2.2 b hb)]; ring
  have f5 : (e.dSh fun s => upValue o U s * jumpN U s 2) =
      (1 / 2) * (e.dSh fun s => e.m.np s 2 * ((U (.plus s)).v ^ 2 - (U (.minus s)).v ^ 2)) +
      (if o.up then 1 / 2 else -(1 / 2)) * e.dSh fun s => |e.m.np s 2| * ((U (.plus s)).v - (U (.minus s)).v) ^ 2 := by
    rw [← dSh_smul, ← dSh_smul, ← dSh_add]
    refine dSh_congr fun s hs => ?_
    unfold upValue jumpN
    rw [hflat s 2, abs_of_nonneg (ho.1 s hs)]
    split <;> ring
  unfold left variation
  simp only [hdg, if_true]
  rw [f3, f4, f5]
  cases hup : o.up <;> simp only [Bool.false_eq_true, if_true, if_false] <;> linarith

/-- C92: the equation has at most one solution in a discontinuous space: `U` stands for the difference of two.  The
test functions are `U` and its vertical derivative `dU`. Then `U` is zero on surface and bottom, does not jump, and its
vertical derivative is zero, at all points with positive weight. -/
theorem C92_unique (o : Opts) (U dU : Sc e.m) (hflat : e.m.Flat) (hu : Upright e) (ho : Oriented e) (hdg : o.dg = true)
    (hdU : ∀ x, (dU (.cell x)).v = (U (.cell x)).g 2)
    (hex : DivExact e.m (upwards (U * U))) (hex' : DivExact e.m (upwards (U * dU)))
    (h : left o U U = 0) (h' : left o U dU = 0) :
    (∀ s, e.hor s = true → 0 < e.m.wS s * e.m.np s 2 → (U (.plus s)).v = (U (.minus s)).v) ∧
    (∀ b, e.face b ≠ .side → 0 < e.m.wB b → e.m.nb b 2 ≠ 0 → (U (.bnd b)).v = 0) ∧
    ∀ x, 0 < e.m.wC x → (U (.cell x)).g 2 = 0 := by
  rw [C92_stable o U hflat hu ho hdg hex] at h
  have hv : variation U = 0 := by
    rcases mul_eq_zero.1 h with h | h
    · split at h <;> norm_num at h
    · exact h
  unfold variation at hv
  have n1 : 0 ≤ e.dSh fun s => |e.m.np s 2| * ((U (.plus s)).v - (U (.minus s)).v) ^ 2 :=
    dSh_nonneg fun s => by positivity
  have n2 : 0 ≤ e.dsurf fun b => |e.m.nb b 2| * (U (.bnd b)).v ^ 2 := dsurf_nonneg fun b _ => by positivity
  have n3 : 0 ≤ e.dbottom fun b => |e.m.nb b 2| * (U (.bnd b)).v ^ 2 := dbottom_nonneg fun b _ => by positivity
  have z1 : (e.dSh fun s => |e.m.np s 2| * ((U (.plus s)).v - (U (.minus s)).v) ^ 2) = 0 := by linarith
  have z2 : (e.dsurf fun b => |e.m.nb b 2| * (U (.bnd b)).v ^ 2) = 0 := by linarith
  have z3 : (e.dbottom fun b => |e.m.nb b 2| * (U (.bnd b)).v ^ 2) = 0 := by linarith
  have s1 : ∀ s, e.hor s = true → e.m.wS s * e.m.np s 2 = 0 ∨ (U (.plus s)).v = (U (.minus s)).v := by
    intro s hs
    have := (Finset.sum_eq_zero_iff_of_nonneg (fun s _ => ?_)).1 z1 s (Finset.mem_univ _)
    · dsimp only at this
      rw [if_pos hs, abs_of_nonneg (ho.1 s hs)] at this
      rcases mul_eq_zero.1 this with h | h
      · exact Or.inl (by rw [h, zero_mul])
      · rcases mul_eq_zero.1 h with h | h
        · exact Or.inl (by rw [h, mul_zero])
        · exact Or.inr (by nlinarith [pow_eq_zero_iff (two_ne_zero) |>.1 h])
    · refine mul_nonneg (e.m.wS_nonneg s) ?_
      dsimp only
      split
      · positivity
      · exact le_rfl
  have b1 : ∀ b, e.face b ≠ .side → e.m.wB b = 0 ∨ e.m.nb b 2 = 0 ∨ (U (.bnd b)).v = 0 := by
    intro b hb
    have key : ∀ F : Face, e.face b = F →
        (∑ b, e.m.wB b * if e.face b = F then |e.m.nb b 2| * (U (.bnd b)).v ^ 2 else 0) = 0 →
        e.m.wB b = 0 ∨ e.m.nb b 2 = 0 ∨ (U (.bnd b)).v = 0 := by
      intro F hF hz
      have := (Finset.sum_eq_zero_iff_of_nonneg (fun b _ => ?_)).1 hz b (Finset.mem_univ _)
      · rw [if_pos hF] at this
        rcases mul_eq_zero.1 this with h | h
        · exact Or.inl h
        · rcases mul_eq_zero.1 h with h | h
          · exact Or.inr (Or.inl (abs_eq_zero.1 h))
          · exact Or.inr (Or.inr (pow_eq_zero_iff (two_ne_zero) |>.1 h))
      · refine mul_nonneg (e.m.wB_nonneg b) ?_
        split
        · positivity
        · exact le_rfl
    cases hF : e.face b with
    | surf => exact key .surf hF z2
    | bottom => exact key .bottom hF z3
    | side => exact absurd hF hb
  refine ⟨fun s hs hp => (s1 s hs).resolve_left hp.ne', fun b hb hw hn => ?_, ?_⟩
  · rcases b1 b hb with h | h | h
    · exact absurd h hw.ne'
    · exact absurd h hn
    · exact h
  · have hd := divExact_upwards _ hu hex'
    have e1 : (e.m.dx fun x => ((U * dU) (.cell x)).g 2) =
        (e.m.dx fun x => (dU (.cell x)).g 2 * (U (.cell x)).v) + e.m.dx fun x => (U (.cell x)).g 2 ^ 2 := by
      rw [← dx_add]
      exact dx_congr fun x => by rw [mul_g2, hdU]; ring
    have e2 : (e.dSh fun s => jumpN (U * dU) s 2) = e.dSh fun s => upValue o U s * jumpN dU s 2 := by
      unfold Mesh3.dSh Mesh.dS
      refine Finset.sum_congr rfl fun s _ => ?_
      dsimp only
      by_cases hs : e.hor s = true
      · rw [if_pos hs, if_pos hs]
        unfold jumpN upValue
        simp only [Pi.mul_apply, Jet.mul_v]
        rw [hflat s 2]
        rcases s1 s hs with h | h
        · have : e.m.wS s * ((U (.plus s)).v * (dU (.plus s)).v * e.m.np s 2 +
              (U (.minus s)).v * (dU (.minus s)).v * -e.m.np s 2) = (e.m.wS s * e.m.np s 2) *
              ((U (.plus s)).v * (dU (.plus s)).v - (U (.minus s)).v * (dU (.minus s)).v) := by ring
          rw [this, h, zero_mul]
          have : ∀ a : ℝ, e.m.wS s * (a * ((dU (.plus s)).v * e.m.np s 2 + (dU (.minus s)).v * -e.m.np s 2)) =
              (e.m.wS s * e.m.np s 2) * (a * ((dU (.plus s)).v - (dU (.minus s)).v)) := by intro a; ring
          rw [this, h, zero_mul]
        · rw [h]; split <;> ring
      · rw [if_neg hs, if_neg hs]
    have e3 : ∀ F : Face, F ≠ .side →
        (∑ b, e.m.wB b * if e.face b = F then ((U * dU) (.bnd b)).v * e.m.nb b 2 else 0) = 0 := by
      intro F hF
      refine Finset.sum_eq_zero fun b _ => ?_
      split
      · rename_i hb
        simp only [Pi.mul_apply, Jet.mul_v]
        rcases b1 b (hb ▸ hF) with h | h | h <;> rw [h] <;> ring
      · ring
    have e4 : (e.dsurf fun b => ((U * dU) (.bnd b)).v * e.m.nb b 2) = 0 := e3 .surf (by decide)
    have e5 : (e.dbottom fun b => ((U * dU) (.bnd b)).v * e.m.nb b 2) = 0 := e3 .bottom (by decide)
    rw [e1, e2, e4, e5] at hd
    have f4 : (e.dsurf fun b => e.m.nb b 2 * ((U (.bnd b)).v * (dU (.bnd b)).v)) = 0 := by
      rw [← e4]; exact dsurf_congr fun b _ => by simp only [Pi.mul_apply, Jet.mul_v]; ring
    have f5 : (e.dbottom fun b => e.m.nb b 2 * ((U (.bnd b)).v * (dU (.bnd b)).v)) = 0 := by
      rw [← e5]; exact dbottom_congr fun b _ => by simp only [Pi.mul_apply, Jet.mul_v]; ring
    unfold left at h'
    simp only [hdg, if_true] at h'
    rw [f4, f5, ite_self] at h'
    have hz : (e.m.dx fun x => (U (.cell x)).g 2 ^ 2) = 0 := by linarith
    intro x hx
    have := (Finset.sum_eq_zero_iff_of_nonneg (fun x _ => mul_nonneg (e.m.wC_nonneg x) (sq_nonneg _))).1 hz x
      (Finset.mem_univ _)
    rcases mul_eq_zero.1 this with h | h
    · exact absurd h hx.ne'
    · exact pow_eq_zero_iff (two_ne_zero) |>.1 h

end Verif.Column
