import Verif.Local.Lemmas
import Verif.Swe.Model

/-!
C144: the tendencies of velocity and elevation in a cell depend on this cell and its neighbours.
-/

namespace Verif.Local

open Verif.Dg Verif.Swe

variable {m : Mesh 2} {κ : Type*} {own : Pt m → κ} {k : κ}

/-! ### Test functions of one cell -/

section Test

variable {w : Vc m} {phi : Sc m} (hw : ∀ i, Only own k (w i)) (hp : Only own k phi)
include hw

theorem div_test {x : m.C} (hx : own (.cell x) ≠ k) : div w (.cell x) = 0 := by
  simp only [div, (hw _) _ hx, zg, Finset.sum_const_zero]

theorem jumpV_test {s : m.S} (h1 : own (.plus s) ≠ k) (h2 : own (.minus s) ≠ k) : jumpV w s = 0 := by
  simp only [jumpV, (hw _) _ h1, (hw _) _ h2, zv, zero_mul, Finset.sum_const_zero, add_zero]

theorem normalAt_test {x : m.B} (hx : own (.bnd x) ≠ k) : normalAt w x = 0 := by
  simp only [normalAt, (hw _) _ hx, zv, zero_mul, Finset.sum_const_zero]

theorem tensorJump_test {s : m.S} (h1 : own (.plus s) ≠ k) (h2 : own (.minus s) ≠ k) (i j : Fin 2) : tensorJump w s i j = 0 := by
  simp only [tensorJump, (hw _) _ h1, (hw _) _ h2, zv, zero_mul, add_zero]

end Test

/-! ### Fields -/

theorem normalAt_same {u v : Vc m} (h : SameV own (near own k) u v) {x : m.B} (hx : own (.bnd x) = k) :
    normalAt u x = normalAt v x := by
  simp only [normalAt, (h _).cell hx]

theorem atB_same {u v : Vc m} (h : SameV own (near own k) u v) {x : m.B} (hx : own (.bnd x) = k) : atB u x = atB v x := by
  funext i
  simp only [atB, (h _).cell hx]

theorem jumpV_same {u v : Vc m} (h : SameV own (near own k) u v) {s : m.S} (hs : own (.plus s) = k ∨ own (.minus s) = k) :
    jumpV u s = jumpV v s := by
  simp only [jumpV, ((h _).facet hs).1, ((h _).facet hs).2]

theorem avg_same {u v : Sc m} (h : Same own (near own k) u v) {s : m.S} (hs : own (.plus s) = k ∨ own (.minus s) = k) :
    avg u s = avg v s := by
  simp only [avg, (h.facet hs).1, (h.facet hs).2]

theorem jumpN_same {u v : Sc m} (h : Same own (near own k) u v) {s : m.S} (hs : own (.plus s) = k ∨ own (.minus s) = k) (i : Fin 2) :
    jumpN u s i = jumpN v s i := by
  simp only [jumpN, (h.facet hs).1, (h.facet hs).2]

theorem totalH_same (T : Term m) {A : Set κ} {e f : Sc m} (h : Same own A e f) : Same own A (totalH T e) (totalH T f) := fun x hx => by
  simp only [totalH, h x hx]

variable (T : Term m) (bc : ℕ → Option (Funcs m)) {u u' uo uo' w : Vc m} {e e' eo eo' phi : Sc m}
  (hu : SameV own (near own k) u u') (he : Same own (near own k) e e') (huo : SameV own (near own k) uo uo')
  (heo : Same own (near own k) eo eo') (hw : ∀ i, Only own k (w i)) (hphi : Only own k phi)

section
include hu he heo

theorem headOpen_same (f : Funcs m) (j : ℕ) (x : m.B) (hx : own (.bnd x) = k) :
    headOpen T f j u e eo x = headOpen T f j u' e' eo' x := by
  simp only [headOpen, he.cell hx, atB_same hu hx, (totalH_same T heo).cell hx]

include hw

/-- C144: the external pressure gradient. -/
theorem C144_pressure : pressure T bc u e eo w = pressure T bc u' e' eo' w := by
  have hb : ∀ j x, own (.bnd x) = k → headBnd T bc u e eo j x = headBnd T bc u' e' eo' j x := fun j x hx => by
    simp only [headBnd, headOpen_same T hu he heo _ j x hx, he.cell hx, (totalH_same T heo).cell hx, normalAt_same hu hx]
  have hc : ∀ j x, own (.bnd x) = k → headCorr T bc u e eo j x = headCorr T bc u' e' eo' j x := fun j x hx => by
    simp only [headCorr, headOpen_same T hu he heo _ j x hx, he.cell hx]
  unfold pressure
  refine if_congr Iff.rfl (congrArg Neg.neg (congrArg₂ _ (congrArg₂ _
    (dx_congr (k := k) (own := own) (fun x hx => ?_) (fun x hx => ?_) fun x hx => ?_)
    (dS_congr (k := k) (own := own) (fun s hs => ?_) (fun s h1 h2 => ?_) fun s h1 h2 => ?_))
    (bndLoop_congr (k := k) (own := own) (fun j x hx => ?_) (fun j x hx => ?_) fun j x hx => ?_)))
    (congrArg Neg.neg (congrArg₂ _ (dx_congr (k := k) (own := own) (fun x hx => ?_) (fun x hx => ?_) fun x hx => ?_)
    (bndLoop_congr (k := k) (own := own) (fun j x hx => ?_) (fun j x hx => ?_) fun j x hx => ?_)))
  · rw [he.cell hx]
  · rw [div_test hw hx, mul_zero, neg_zero]
  · rw [div_test hw hx, mul_zero, neg_zero]
  · rw [avg_same he hs, avg_same (totalH_same T heo) hs, jumpV_same hu hs]
  · rw [jumpV_test hw h1 h2, mul_zero]
  · rw [jumpV_test hw h1 h2, mul_zero]
  · rw [hb j x hx]
  · rw [normalAt_test hw hx, mul_zero]
  · rw [normalAt_test hw hx, mul_zero]
  · simp only [he.cell hx]
  · simp only [(hw _) _ hx, zv, mul_zero, Finset.sum_const_zero]
  · simp only [(hw _) _ hx, zv, mul_zero, Finset.sum_const_zero]
  · rw [hc j x hx]
  · rw [normalAt_test hw hx, mul_zero]
  · rw [normalAt_test hw hx, mul_zero]

end

section
include hu he huo heo hphi

/-- C144: the divergence of the flow. -/
theorem C144_divergence : huDiv T bc u e uo eo phi = huDiv T bc u' e' uo' eo' phi := by
  have hT := totalH_same T heo
  have hb : ∀ j x, own (.bnd x) = k → volFlux T bc u e uo eo j x = volFlux T bc u' e' uo' eo' j x := fun j x hx => by
    simp only [volFlux, fluxOpen, he.cell hx, heo.cell hx, atB_same hu hx, atB_same huo hx, hT.cell hx]
  unfold huDiv
  refine if_congr Iff.rfl (congrArg Neg.neg (congrArg₂ _ (congrArg₂ _
    (dx_congr (k := k) (own := own) (fun x hx => ?_) (fun x hx => ?_) fun x hx => ?_)
    (if_congr Iff.rfl (dS_congr (k := k) (own := own) (fun s hs => ?_) (fun s h1 h2 => ?_) fun s h1 h2 => ?_) rfl))
    (bndLoop_congr (k := k) (own := own) (fun j x hx => ?_) (fun j x hx => ?_) fun j x hx => ?_)))
    (congrArg Neg.neg (congrArg₂ _ (dx_congr (k := k) (own := own) (fun x hx => ?_) (fun x hx => ?_) fun x hx => ?_)
    (bndLoop_congr (k := k) (own := own) (fun j x hx => ?_) (fun j x hx => ?_) fun j x hx => ?_)))
  · simp only [hT.cell hx, (hu _).cell hx]
  · simp only [hphi _ hx, zg, zero_mul, Finset.sum_const_zero, neg_zero]
  · simp only [hphi _ hx, zg, zero_mul, Finset.sum_const_zero, neg_zero]
  · simp only [avg_same hT hs, avg_same (hu _) hs, jumpN_same he hs]
  · simp only [jumpN, hphi _ h1, hphi _ h2, zv, zero_mul, add_zero, Finset.sum_const_zero]
  · simp only [jumpN, hphi _ h1, hphi _ h2, zv, zero_mul, add_zero, Finset.sum_const_zero]
  · rw [hb j x hx]
  · rw [hphi _ hx, zv, mul_zero]
  · rw [hphi _ hx, zv, mul_zero]
  · have : ∀ i, (totalH T eo * u i) (.cell x) = (totalH T eo' * u' i) (.cell x) := fun i => by
      change totalH T eo (.cell x) * u i (.cell x) = totalH T eo' (.cell x) * u' i (.cell x)
      rw [hT.cell hx, (hu i).cell hx]
    simp only [div, this]
  · rw [hphi _ hx, zv, mul_zero]
  · rw [hphi _ hx, zv, mul_zero]
  · rw [hT.cell hx, normalAt_same hu hx]
  · simp only [hphi _ hx, zv, mul_zero, neg_zero, ite_self]
  · simp only [hphi _ hx, zv, mul_zero, neg_zero, ite_self]

end

section
include hw

/-- Gradients of `w uvOld` away from the cell. -/
theorem test_mul (f : Sc m) (i : Fin 2) {x : Pt m} (hx : own x ≠ k) : (w i * f) x = 0 := by
  change w i x * f x = 0
  rw [hw i x hx]
  ext
  · exact zero_mul _
  · change (0 : ℝ) * _ + 0 * _ = 0
    ring

include hu he huo heo

/-- C144: advection of momentum. -/
theorem C144_momentum_advection : advection T bc u e uo eo w = advection T bc u' e' uo' eo' w := by
  have hT := totalH_same T heo
  have hm : ∀ j x, own (.bnd x) = k → momBnd T bc u e uo eo w j x = momBnd T bc u' e' uo' eo' w j x := fun j x hx => by
    simp only [momBnd, momFlux, he.cell hx, heo.cell hx, atB_same hu hx, atB_same huo hx, hT.cell hx]
  have hl : ∀ j x, own (.bnd x) = k → lfBnd T bc u uo w j x = lfBnd T bc u' uo' w j x := fun j x hx => by
    simp only [lfBnd, normalAt_same huo hx, normalAt_same hu hx, atB_same hu hx]
  have hmul : ∀ i j, ∀ x, own x ∈ near own k → (w i * uo j) x = (w i * uo' j) x := fun i j x hx => by
    change w i x * uo j x = w i x * uo' j x
    rw [huo j x hx]
  have z1 : ∀ (u e uo eo : _) j x, own (.bnd x) ≠ k → momBnd T bc u e uo eo w j x = 0 := fun u e uo eo j x hx => by
    unfold momBnd
    cases openFuncs (bc j) <;> simp only [(hw _) _ hx, zv, mul_zero, Finset.sum_const_zero]
  have z2 : ∀ (u uo : _) j x, own (.bnd x) ≠ k → lfBnd T bc u uo w j x = 0 := fun u uo j x hx => by
    unfold lfBnd
    cases openFuncs (bc j) <;> simp only [(hw _) _ hx, zv, zero_mul, Finset.sum_const_zero, mul_zero]
  have zd : ∀ (uo : Vc m) i x, own (.cell x) ≠ k → div (fun j => w i * uo j) (.cell x) = 0 := fun uo i x hx => by
    simp only [div, test_mul hw _ _ hx, zg, Finset.sum_const_zero]
  have zj : ∀ (uo : Vc m) i s, own (.plus s) ≠ k → own (.minus s) ≠ k → jumpV (fun j => w i * uo j) s = 0 := fun uo i s h1 h2 => by
    simp only [jumpV, test_mul hw _ _ h1, test_mul hw _ _ h2, zv, zero_mul, Finset.sum_const_zero, add_zero]
  unfold advection
  refine if_congr Iff.rfl (congrArg Neg.neg (congrArg₂ _ (congrArg₂ _
    (dx_congr (k := k) (own := own) (fun x hx => ?_) (fun x hx => ?_) fun x hx => ?_)
    (if_congr Iff.rfl (congrArg₂ _ (dS_congr (k := k) (own := own) (fun s hs => ?_) (fun s h1 h2 => ?_) fun s h1 h2 => ?_)
    (if_congr Iff.rfl (congrArg₂ _ (dS_congr (k := k) (own := own) (fun s hs => ?_) (fun s h1 h2 => ?_) fun s h1 h2 => ?_)
    (bndLoop_congr (k := k) (own := own) hl (z2 _ _) (z2 _ _))) rfl)) rfl))
    (bndLoop_congr (k := k) (own := own) hm (z1 _ _ _ _) (z1 _ _ _ _)))) rfl
  · simp only [div, hmul _ _ _ (.inl hx), (hu _).cell hx]
  · simp only [zd _ _ _ hx, zero_mul, Finset.sum_const_zero, neg_zero]
  · simp only [zd _ _ _ hx, zero_mul, Finset.sum_const_zero, neg_zero]
  · have h1 : ∀ i, jumpV (fun j => w i * uo j) s = jumpV (fun j => w i * uo' j) s := fun i =>
      jumpV_same (own := own) (k := k) (fun j x hx => hmul i j x hx) hs
    simp only [avg_same (hu _) hs, h1]
  · simp only [zj _ _ _ h1 h2, mul_zero, Finset.sum_const_zero]
  · simp only [zj _ _ _ h1 h2, mul_zero, Finset.sum_const_zero]
  · simp only [avg_same (huo _) hs, jump, ((hu _).facet hs).1, ((hu _).facet hs).2]
  · simp only [jump, (hw _) _ h1, (hw _) _ h2, zv, sub_self, zero_mul, Finset.sum_const_zero, mul_zero]
  · simp only [jump, (hw _) _ h1, (hw _) _ h2, zv, sub_self, zero_mul, Finset.sum_const_zero, mul_zero]

end

section
include hu

theorem stress_same (nu : Sc m) {x : Pt m} (hx : own x ∈ near own k) (i j : Fin 2) : stress T nu u x i j = stress T nu u' x i j := by
  simp only [stress, Swe.symm, (hu _) x hx]

theorem tensorJump_same {s : m.S} (hs : own (.plus s) = k ∨ own (.minus s) = k) : tensorJump u s = tensorJump u' s := by
  funext i j
  simp only [tensorJump, ((hu _).facet hs).1, ((hu _).facet hs).2]

include he heo hw

/-- C144: viscosity. -/
theorem C144_viscosity (nu : Option (Sc m)) : viscosity T bc nu u e eo w = viscosity T bc nu u' e' eo' w := by
  have hT := totalH_same T heo
  unfold viscosity
  cases nu with
  | none => rfl
  | some nu =>
    have hb : ∀ j x, own (.bnd x) = k → viscBnd T bc nu u e w j x = viscBnd T bc nu u' e' w j x := fun j x hx => by
      simp only [viscBnd, deltaUv, he.cell hx, atB_same hu hx, normalAt_same hu hx, stress_same T hu nu (.inl hx)]
    have zb : ∀ (u : Vc m) (e : Sc m) j x, own (.bnd x) ≠ k → viscBnd T bc nu u e w j x = 0 := fun u e j x hx => by
      unfold viscBnd
      cases deltaUv T bc u e j x <;>
      simp only [(hw _) _ hx, zv, zg, zero_mul, mul_zero, sub_self, Finset.sum_const_zero]
    have hside : ∀ s, own (.plus s) = k ∨ own (.minus s) = k → own (.plus s) ∈ near own k ∧ own (.minus s) ∈ near own k := by
      rintro s (hs | hs)
      · exact ⟨.inl hs, .inr ⟨s, .inl ⟨hs, rfl⟩⟩⟩
      · exact ⟨.inr ⟨s, .inr ⟨hs, rfl⟩⟩, .inl hs⟩
    refine congrArg Neg.neg (congrArg₂ _ (congrArg₂ _
      (dx_congr (k := k) (own := own) (fun x hx => ?_) (fun x hx => ?_) fun x hx => ?_)
      (if_congr Iff.rfl (congrArg₂ _ (dS_congr (k := k) (own := own) (fun s hs => ?_) (fun s h1 h2 => ?_) fun s h1 h2 => ?_)
      (bndLoop_congr (k := k) (own := own) hb (zb _ _) (zb _ _))) rfl))
      (if_congr Iff.rfl (dx_congr (k := k) (own := own) (fun x hx => ?_) (fun x hx => ?_) fun x hx => ?_) rfl))
    · simp only [stress_same T hu nu (.inl hx)]
    · simp only [(hw _) _ hx, zg, zero_mul, Finset.sum_const_zero]
    · simp only [(hw _) _ hx, zg, zero_mul, Finset.sum_const_zero]
    · simp only [tensorJump_same hu hs, stress_same T hu nu (hside s hs).1, stress_same T hu nu (hside s hs).2]
    · simp only [tensorJump_test hw h1 h2, (hw _) _ h1, (hw _) _ h2, zg, zero_mul, mul_zero, add_zero, sub_self, Finset.sum_const_zero]
    · simp only [tensorJump_test hw h1 h2, (hw _) _ h1, (hw _) _ h2, zg, zero_mul, mul_zero, add_zero, sub_self, Finset.sum_const_zero]
    · simp only [stress_same T hu nu (.inl hx), hT.cell hx]
    · simp only [(hw _) _ hx, zv, zero_mul, Finset.sum_const_zero, neg_zero]
    · simp only [(hw _) _ hx, zv, zero_mul, Finset.sum_const_zero, neg_zero]

end

/-- Integrals over cells only, with an integrand that has the test function as a factor. -/
theorem dx_same {f g : m.C → ℝ} (h : ∀ x, own (.cell x) = k → f x = g x) (hf : ∀ x, own (.cell x) ≠ k → f x = 0 ∧ g x = 0) :
    m.dx f = m.dx g :=
  dx_congr (k := k) (own := own) h (fun x hx => (hf x hx).1) fun x hx => (hf x hx).2

section
include hu he huo heo hw

/-- C144: all terms of the momentum equation. -/
theorem C144_momentum (K : Coeffs m) : momentum T K bc u e uo eo w = momentum T K bc u' e' uo' eo' w := by
  have hT := totalH_same T heo
  unfold momentum
  refine congrArg₂ _ (congrArg₂ _ (congrArg₂ _ (congrArg₂ _ (congrArg₂ _ (congrArg₂ _ (congrArg₂ _ (congrArg₂ _ (congrArg₂ _
    (congrArg₂ _ (congrArg₂ _ (C144_pressure T bc hu he heo hw) (C144_momentum_advection T bc hu he huo heo hw))
    (C144_viscosity T bc hu he heo hw K.nu)) ?_) ?_) rfl) ?_) ?_) ?_) ?_) rfl) ?_
  · unfold coriolis
    cases K.coriolis with
    | none => rfl
    | some f =>
      refine congrArg Neg.neg (dx_same (own := own) (k := k) (fun x hx => ?_) fun x hx => ?_)
      · simp only [(hu _).cell hx]
      · simp only [(hw _) _ hx, zv, mul_zero, add_zero, and_self]
  · unfold windStress
    cases K.wind with
    | none => rfl
    | some f =>
      refine dx_same (own := own) (k := k) (fun x hx => ?_) fun x hx => ?_
      · simp only [hT.cell hx]
      · simp only [(hw _) _ hx, zv, mul_zero, Finset.sum_const_zero, zero_div, and_self]
  · unfold quadraticDrag
    cases K.cd with
    | none => rfl
    | some f =>
      refine congrArg Neg.neg (dx_same (own := own) (k := k) (fun x hx => ?_) fun x hx => ?_)
      · simp only [(hu _).cell hx, (huo _).cell hx, hT.cell hx]
      · simp only [(hw _) _ hx, zv, zero_mul, mul_zero, Finset.sum_const_zero, zero_div, and_self]
  · unfold linearDrag
    cases K.linear with
    | none => rfl
    | some f =>
      refine congrArg Neg.neg (dx_same (own := own) (k := k) (fun x hx => ?_) fun x hx => ?_)
      · simp only [(hu _).cell hx]
      · simp only [(hw _) _ hx, zv, zero_mul, mul_zero, Finset.sum_const_zero, and_self]
  · refine congrArg Neg.neg (bndLoop_congr (own := own) (k := k) (fun j x hx => ?_) (fun j x hx => ?_) fun j x hx => ?_)
    · simp only [dragBnd, tangential, atB_same hu hx, atB_same huo hx, normalAt_same hu hx, normalAt_same huo hx]
    · unfold dragBnd
      cases (bc j).bind Funcs.drag <;> simp only [(hw _) _ hx, zv, zero_mul, mul_zero, Finset.sum_const_zero]
    · unfold dragBnd
      cases (bc j).bind Funcs.drag <;> simp only [(hw _) _ hx, zv, zero_mul, mul_zero, Finset.sum_const_zero]
  · unfold bottomDrag3d
    cases K.bottomDrag with
    | none => rfl
    | some f =>
      cases K.uvBottom with
      | none => rfl
      | some g =>
        refine congrArg Neg.neg (dx_same (own := own) (k := k) (fun x hx => ?_) fun x hx => ?_)
        · simp only [hT.cell hx]
        · simp only [(hw _) _ hx, zv, mul_zero, Finset.sum_const_zero, and_self]
  · unfold turbineDrag
    refine congrArg Neg.neg (congrArg List.sum (List.map_congr_left fun F _ => dx_same (own := own) (k := k) (fun x hx => ?_) fun x hx => ?_))
    · simp only [(hu _).cell hx, (huo _).cell hx, hT.cell hx]
    · simp only [(hw _) _ hx, zv, zero_mul, mul_zero, Finset.sum_const_zero, zero_div, ite_self, and_self]

end

end Verif.Local
