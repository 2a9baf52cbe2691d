import Verif.Column.Props

/-!
C92: boundary values, averages, the baroclinic head, moving meshes.
-/

namespace Verif.Column

open Verif.Dg Verif.Ext

variable {e : Mesh3}

/-- C92: the boundary value enters with the wrong sign: for zero integrand and boundary value `v` the constant `-v`
solves the equation, for all test functions with which the divergence theorem holds, and the constant `v` does not. -/
theorem C92_boundary_violated (o : Opts) (v : ℝ) (hv : v ≠ 0) (hflat : e.m.Flat) (hu : Upright e)
    (harea : e.dbottom (fun b => e.m.nb b 2) ≠ 0)
    (hex : DivExact e.m (upwards (cst e.m 1))) :
    (∀ phi, DivExact e.m (upwards (cst e.m (-v) * phi)) →
      (o.dg = false → ∀ s, e.hor s = true → (phi (.plus s)).v = (phi (.minus s)).v) →
      Integrates o (cst e.m 0) (cst e.m v) (cst e.m (-v)) phi) ∧
    ¬ Integrates o (cst e.m 0) (cst e.m v) (cst e.m v) (cst e.m 1) := by
  refine ⟨fun phi h hcg => C92_exact o _ _ _ phi hflat hu h (fun x => rfl) (fun s _ => rfl) (fun b _ => rfl) hcg, ?_⟩
  have h := divExact_upwards _ hu hex
  have e1 : (e.m.dx fun x => ((cst e.m 1 : Sc e.m) (.cell x)).g 2) = 0 := by simp [dx_zero]
  have e2 : (e.dSh fun s => jumpN (cst e.m 1) s 2) = 0 := by
    have : (e.dSh fun s => jumpN (cst e.m 1) s 2) = e.dSh fun _ => (0 : ℝ) * 0 :=
      dSh_congr fun s _ => by unfold jumpN; rw [hflat s 2]; simp
    rw [this, dSh_smul, zero_mul]
  rw [e1, e2] at h
  simp only [cst_apply, Jet.const_v, one_mul] at h
  intro hi
  unfold Integrates left right at hi
  have e3 : (e.dSh fun s => upValue o (cst e.m v) s * jumpN (cst e.m 1) s 2) = 0 := by
    have : (e.dSh fun s => upValue o (cst e.m v) s * jumpN (cst e.m 1) s 2) = e.dSh fun _ => (0 : ℝ) * 0 :=
      dSh_congr fun s _ => by unfold jumpN; rw [hflat s 2]; simp
    rw [this, dSh_smul, zero_mul]
  have e4 : (e.dsurf fun b => e.m.nb b 2 * v) = v * e.dsurf fun b => e.m.nb b 2 := by
    rw [← dsurf_smul]; exact dsurf_congr fun b _ => by ring
  have e5 : (e.dbottom fun b => e.m.nb b 2 * v) = v * e.dbottom fun b => e.m.nb b 2 := by
    rw [← dbottom_smul]; exact dbottom_congr fun b _ => by ring
  simp only [e3, ite_self, cst_apply, Jet.const_v, Jet.const_g, mul_one, zero_mul, dx_zero, e4, e5, neg_zero, zero_add,
    add_zero] at hi
  have hz : v * e.dbottom (fun b => e.m.nb b 2) = 0 := by
    split at hi
    · linear_combination (-(1 / 2) * v) * h - (1 / 2) * hi
    · linear_combination (-(1 / 2) * v) * h + (1 / 2) * hi
  rcases mul_eq_zero.1 hz with h' | h'
  · exact hv h'
  · exact harea h'

/-- C92: with `average` the value on the surface, summed over a set of columns, is the integral of the input divided by
the depth. -/
theorem C92_average (o : Opts) (input elev bath f U phi : Sc e.m) (hup : o.up = true) (hflat : e.m.Flat)
    (hf : ∀ x, (f (.cell x)).v = source input (some (elev, bath)) x)
    (hg : ∀ x, (phi (.cell x)).g 2 = 0)
    (hj : ∀ s, e.hor s = true → (phi (.plus s)).v = (phi (.minus s)).v)
    (h : Integrates o f (cst e.m 0) U phi) :
    (e.dsurf fun b => (U (.bnd b)).v * (phi (.bnd b)).v * e.m.nb b 2) =
      e.m.dx fun x => (input (.cell x)).v / ((elev (.cell x)).v + (bath (.cell x)).v) * (phi (.cell x)).v := by
  have := C92_total o f U phi hflat hg hj h
  rw [hup, if_pos rfl] at this
  rw [this]
  exact dx_congr fun x => by rw [hf]; rfl

/-- C92: with the integral of the density from the surface down, the baroclinic head is the integral of the density
between a point and the surface, divided by the reference density: this head `r` decreases upwards with slope `rho / rho0`
and is zero at the surface, and the integrator is solved by the field that is scaled to it. -/
theorem C92_head (o : Opts) (rho r phi : Sc e.m) (rho0 : ℝ) (h0 : rho0 ≠ 0) (hup : o.up = false) (hflat : e.m.Flat)
    (hu : Upright e)
    (hder : ∀ x, (r (.cell x)).g 2 = -((rho (.cell x)).v / rho0))
    (hcont : ∀ s, e.hor s = true → (r (.plus s)).v = (r (.minus s)).v)
    (hsurf : ∀ b, e.face b = .surf → (r (.bnd b)).v = 0)
    (hex : DivExact e.m (upwards (cst e.m (-rho0) * r * phi)))
    (hcg : o.dg = false → ∀ s, e.hor s = true → (phi (.plus s)).v = (phi (.minus s)).v) :
    ∃ R, Integrates o rho (cst e.m 0) R phi ∧ head (1 / rho0) R = r := by
  refine ⟨cst e.m (-rho0) * r, C92_exact o rho _ _ phi hflat hu hex (fun x => ?_) (fun s hs => ?_) (fun b hb => ?_) hcg, ?_⟩
  · simp only [Pi.mul_apply, Jet.mul_g, cst_apply, Jet.const_v, Jet.const_g, hder]
    field_simp
    ring
  · simp only [Pi.mul_apply, Jet.mul_v, hcont s hs, cst_apply, Jet.const_v]
  · unfold start at hb
    rw [hup] at hb
    simp only [Pi.mul_apply, Jet.mul_v, cst_apply, Jet.const_v]
    rw [hsurf b (by simpa using hb)]; simp
  · funext p
    unfold head
    apply Jet.ext
    · simp only [Pi.mul_apply, Jet.mul_v, cst_apply, Jet.const_v]; field_simp
    · funext i
      simp only [Pi.mul_apply, Jet.mul_g, Jet.mul_v, cst_apply, Jet.const_v, Jet.const_g]
      field_simp
      ring

/-- C92: the matrix does not change when the layers are stretched vertically, so it may be kept while the mesh moves
(`constant_jacobian=average`, utility3d.py:200).  See `C85_stretch` for the hypotheses. -/
theorem C92_stretch (o : Opts) (m m' : Mesh 3) (hor : m.S → Bool) (face : m.B → Face)
    (hC : m'.C = m.C) (hS : m'.S = m.S) (hB : m'.B = m.B) :
    ∀ (k : m.C → ℝ), (∀ x, k x ≠ 0) →
      (∀ x, m'.wC (cast hC.symm x) = k x * m.wC x) →
      (∀ s, m'.wS (cast hS.symm s) * m'.np (cast hS.symm s) 2 = m.wS s * m.np s 2) →
      (∀ s, m'.wS (cast hS.symm s) * m'.nm (cast hS.symm s) 2 = m.wS s * m.nm s 2) →
      (∀ b, m'.wB (cast hB.symm b) * m'.nb (cast hB.symm b) 2 = m.wB b * m.nb b 2) →
      ∀ (u phi : Sc m) (u' phi' : Sc m'),
        (∀ x, (u' (.cell (cast hC.symm x))).v = (u (.cell x)).v) →
        (∀ x, (phi' (.cell (cast hC.symm x))).g 2 = (phi (.cell x)).g 2 / k x) →
        (∀ s, (u' (.plus (cast hS.symm s))).v = (u (.plus s)).v ∧
          (u' (.minus (cast hS.symm s))).v = (u (.minus s)).v ∧
          (phi' (.plus (cast hS.symm s))).v = (phi (.plus s)).v ∧
          (phi' (.minus (cast hS.symm s))).v = (phi (.minus s)).v) →
        (∀ b, (u' (.bnd (cast hB.symm b))).v = (u (.bnd b)).v ∧
          (phi' (.bnd (cast hB.symm b))).v = (phi (.bnd b)).v) →
        left (e := ⟨m', fun s => hor (cast hS s), fun b => face (cast hB b)⟩) o u' phi' =
          left (e := ⟨m, hor, face⟩) o u phi := by
  obtain ⟨C', S', B', wC', wS', wB', np', nm', nb', mk', mks', a1, a2, a3, a4, a5, p1, p2, p3, p4, p5⟩ := m'
  obtain ⟨C, S, B, wC, wS, wB, np, nm, nb, mk, mks, b1, b2, b3, b4, b5, q1, q2, q3, q4, q5⟩ := m
  rename_i iC' iS' iB' iC iS iB
  dsimp only at hC hS hB
  subst hC hS hB
  intro k hk h1 h2 h3 h4 u phi u' phi' h5 h6 h7 h8
  obtain rfl : iC = iC' := Subsingleton.elim _ _
  obtain rfl : iS = iS' := Subsingleton.elim _ _
  obtain rfl : iB = iB' := Subsingleton.elim _ _
  simp only [cast_eq] at h1 h2 h3 h4 h5 h6 h7 h8 ⊢
  have hb : ∀ F : Face,
      (∑ b, wB' b * if face b = F then nb' b 2 * ((u' (.bnd b)).v * (phi' (.bnd b)).v) else 0) =
      ∑ b, wB b * if face b = F then nb b 2 * ((u (.bnd b)).v * (phi (.bnd b)).v) else 0 := by
    intro F
    refine Finset.sum_congr rfl fun b _ => ?_
    rw [(h8 b).1, (h8 b).2]
    split
    · linear_combination (u (.bnd b)).v * (phi (.bnd b)).v * h4 b
    · simp
  unfold left Mesh3.dsurf Mesh3.dbottom Mesh3.dSh Mesh.dS Mesh.dx
  dsimp only
  rw [hb .surf, hb .bottom]
  refine congrArg₂ (· + ·) (congrArg₂ (· + ·) (congrArg Neg.neg ?_) rfl) ?_
  · refine Finset.sum_congr rfl fun x _ => ?_
    have := hk x
    rw [h1, h5, h6]
    field_simp
  · split
    · refine Finset.sum_congr rfl fun s _ => ?_
      obtain ⟨i1, i2, i3, i4⟩ := h7 s
      unfold upValue jumpN
      rw [i1, i2, i3, i4]
      dsimp only
      split
      · linear_combination ((if o.up then (u (.plus s)).v else (u (.minus s)).v) * (phi (.plus s)).v) * h2 s +
          ((if o.up then (u (.plus s)).v else (u (.minus s)).v) * (phi (.minus s)).v) * h3 s
      · simp
    · rfl

/-! ### Example: the tank -/

theorem tank_upright : Upright tank := by
  refine ⟨fun s hs => ?_, fun b hb => ?_⟩
  · cases hs
  · change tkFace b = .side at hb
    change tkN b 2 = 0
    cases b <;> simp_all [tkFace, tkN]

theorem tank_oriented : Oriented tank := by
  refine ⟨fun s _ => ?_, fun b hb => ?_, fun b hb => ?_⟩
  · change (0 : ℝ) ≤ (![0, 0, 1] : Fin 3 → ℝ) 2
    simp
  · change tkFace b = .surf at hb
    change 0 ≤ tkN b 2
    cases b <;> simp_all [tkFace, tkN]
  · change tkFace b = .bottom at hb
    change tkN b 2 ≤ 0
    cases b <;> simp_all [tkFace, tkN]

theorem tank_exact_upwards (lo up : Lin) : DivExact tank.m (upwards (tankField lo up)) := by
  have : upwards (tankField lo up) = fun i => tankField (if i = 2 then lo else ⟨0, 0, 0, 0⟩)
      (if i = 2 then up else ⟨0, 0, 0, 0⟩) := by
    funext i
    unfold upwards
    split
    · rfl
    · exact tankField_cst 0
  rw [this]
  exact tank_divExact _ _

/-- The height above the sloping bed is the integral of one. -/
example (dg : Bool) (k : ℝ) : Integrates ⟨true, dg⟩ (cst tank.m 1) (cst tank.m 0)
    (tankField ⟨3, -1, 0, 1⟩ ⟨3, -1, 0, 1⟩) (cst tank.m k) := by
  refine C92_exact _ _ _ _ _ tank_flat tank_upright ?_ (fun x => ?_) (fun s _ => ?_) (fun b hb => ?_) (fun _ s _ => rfl)
  · rw [tankField_smul]; exact tank_exact_upwards _ _
  · cases x <;> rfl
  · cases s; rfl
  · change tkFace b = .bottom at hb
    cases b <;> simp_all [tkFace]
    simp [tankField, Lin.jet]
    norm_num

/-- A boundary value one gives minus one. -/
example : ¬ Integrates ⟨true, true⟩ (cst tank.m 0) (cst tank.m 1) (cst tank.m 1) (cst tank.m 1) := by
  refine (C92_boundary_violated ⟨true, true⟩ 1 one_ne_zero tank_flat tank_upright ?_ ?_).2
  · rw [show tank.dbottom (fun b => tank.m.nb b 2) = _ from tank_dbottom _]
    change Real.sqrt 2 * -(1 / Real.sqrt 2) ≠ 0
    have : Real.sqrt 2 ≠ 0 := by positivity
    field_simp
    norm_num
  · rw [tankField_cst]; exact tank_exact_upwards _ _

/-- Density 1000 with reference density 1000: the head is minus the height `z`, the surface being at zero. -/
example : ∃ R, Integrates ⟨false, true⟩ (cst tank.m 1000) (cst tank.m 0) R (cst tank.m 1) ∧
    head (1 / 1000) R = tankField ⟨0, 0, 0, -1⟩ ⟨0, 0, 0, -1⟩ := by
  refine C92_head _ _ _ _ 1000 (by norm_num) rfl tank_flat tank_upright (fun x => ?_) (fun s _ => ?_) (fun b hb => ?_) ?_
    (fun h => by cases h)
  · cases x <;> simp [tankField, Lin.jet]
  · cases s; rfl
  · change tkFace b = .surf at hb
    cases b <;> simp_all [tkFace]
    simp [tankField, Lin.jet]
  · have hc : ∀ f : Sc tank.m, cst tank.m (-1000) * f = f * cst tank.m (-1000) := by
      intro f
      funext p
      apply Jet.ext
      · simp; ring
      · funext i; simp; ring
    rw [hc, tankField_smul, tankField_smul]
    exact tank_exact_upwards _ _

end Verif.Column
