import Verif.Contract.Lemmas
import Mathlib.LinearAlgebra.Dual.Lemmas
import Mathlib.LinearAlgebra.Eigenspace.Minpoly

/-!
Linear systems in a finite-dimensional function space, and sequences that are determined step by step.  Nothing here models code.
-/

namespace Verif.Solve

open Finset Verif.Contract

variable {V : Type*} [AddCommGroup V] [Module ℝ V]

/-- Only zero is mapped to zero by the form on `H`. -/
def Regular (H : Submodule ℝ V) (b : V → V → ℝ) : Prop := ∀ x ∈ H, (∀ w ∈ H, b x w = 0) → x = 0

/-- A bilinear form as a map into the dual space. -/
def toDual (H : Submodule ℝ V) {b : V → V → ℝ} (hb : Bilin b) : H →ₗ[ℝ] Module.Dual ℝ H where
  toFun x :=
    { toFun := fun y => b x y
      map_add' := fun y z => hb.add_right _ _ _
      map_smul' := fun a y => hb.smul_right _ _ _ }
  map_add' x z := by ext y; exact hb.add_left _ _ _
  map_smul' a x := by ext y; exact hb.smul_left _ _ _

theorem toDual_apply (H : Submodule ℝ V) {b : V → V → ℝ} (hb : Bilin b) (x y : H) : toDual H hb x y = b x y := rfl

theorem toDual_injective {H : Submodule ℝ V} {b : V → V → ℝ} (hb : Bilin b) (hr : Regular H b) : Function.Injective (toDual H hb) := by
  rw [← LinearMap.ker_eq_bot, LinearMap.ker_eq_bot']
  intro x hx
  exact Subtype.ext (hr x x.2 fun w hw => LinearMap.congr_fun hx ⟨w, hw⟩)

/-- A regular system has exactly one solution. -/
theorem solve {H : Submodule ℝ V} [FiniteDimensional ℝ H] {b : V → V → ℝ} (hb : Bilin b) (hr : Regular H b) {f : V → ℝ} (hf : IsLin f) :
    ∃! x, x ∈ H ∧ ∀ w ∈ H, b x w = f w := by
  have hinj := toDual_injective hb hr
  have hsurj : Function.Surjective (toDual H hb) :=
    (LinearMap.injective_iff_surjective_of_finrank_eq_finrank Subspace.dual_finrank_eq.symm).1 hinj
  let R : Module.Dual ℝ H := { toFun := fun y => f y, map_add' := fun y z => hf.1 _ _, map_smul' := fun a y => hf.2 _ _ }
  obtain ⟨x, hx⟩ := hsurj R
  refine ⟨x, ⟨x.2, fun w hw => LinearMap.congr_fun hx ⟨w, hw⟩⟩, fun z hz => ?_⟩
  have : toDual H hb ⟨z, hz.1⟩ = toDual H hb x := by
    rw [hx]
    ext y
    exact hz.2 y y.2
  exact congrArg Subtype.val (hinj this)

/-- If `b` is regular, `b - t r` is regular for all but finitely many `t`. -/
theorem regular_finite {H : Submodule ℝ V} [FiniteDimensional ℝ H] {b r : V → V → ℝ} (hb : Bilin b) (hr : Bilin r) (hreg : Regular H b) :
    {t : ℝ | ¬ Regular H fun x w => b x w - t * r x w}.Finite := by
  have hinj := toDual_injective hb hreg
  let B : H ≃ₗ[ℝ] Module.Dual ℝ H := LinearEquiv.ofInjectiveOfFinrankEq (toDual H hb) hinj Subspace.dual_finrank_eq.symm
  have hB : ∀ x y : H, B x y = b x y := fun _ _ => rfl
  let N : Module.End ℝ H := B.symm.toLinearMap ∘ₗ toDual H hr
  refine Set.Finite.subset ((Module.End.finite_hasEigenvalue N).image fun μ => μ⁻¹) fun t ht => ?_
  simp only [Set.mem_ofPred_eq, Regular, not_forall] at ht
  obtain ⟨x, hx, h0, hne⟩ := ht
  have e : B ⟨x, hx⟩ = t • toDual H hr ⟨x, hx⟩ := by
    ext y
    rw [hB, LinearMap.smul_apply, toDual_apply, smul_eq_mul]
    linarith [h0 y y.2]
  have hne' : (⟨x, hx⟩ : H) ≠ 0 := fun h => hne (congrArg Subtype.val h)
  have ht0 : t ≠ 0 := by
    rintro rfl
    rw [zero_smul, LinearEquiv.map_eq_zero_iff] at e
    exact hne' e
  have eN : N ⟨x, hx⟩ = t⁻¹ • ⟨x, hx⟩ := by
    have : toDual H hr ⟨x, hx⟩ = t⁻¹ • B ⟨x, hx⟩ := by rw [e, smul_smul, inv_mul_cancel₀ ht0, one_smul]
    simp only [N, LinearMap.comp_apply, LinearEquiv.coe_coe, this, map_smul, LinearEquiv.symm_apply_apply]
  refine ⟨t⁻¹, ?_, inv_inv t⟩
  exact Module.End.hasEigenvalue_of_hasEigenvector (x := ⟨x, hx⟩) ⟨Module.End.mem_eigenspace_iff.2 eN, hne'⟩

/-- Values computed one after the other, each from those before. -/
noncomputable def chain {X : Type*} [Zero X] (F : ℕ → (ℕ → X) → X) (i : ℕ) : X :=
  F i fun j => if _ : j < i then chain F j else 0
termination_by i

/-- The first members of a sequence are determined if each is determined by those before. -/
theorem chain_unique {X : Type*} [Zero X] (n : ℕ) (P : ℕ → (ℕ → X) → X → Prop) (hP : ∀ i < n, ∀ k, ∃! x, P i k x)
    (hloc : ∀ i < n, ∀ k k', (∀ j < i, k j = k' j) → ∀ x, P i k x → P i k' x) :
    ∃ k : ℕ → X, (∀ i < n, P i k (k i)) ∧ ∀ k' : ℕ → X, (∀ i < n, P i k' (k' i)) → ∀ i < n, k' i = k i := by
  classical
  let F : ℕ → (ℕ → X) → X := fun i k => if h : i < n then (hP i h k).choose else 0
  have hF : ∀ i (h : i < n) k, P i k (F i k) ∧ ∀ y, P i k y → y = F i k := fun i h k => by
    simp only [F, h, dite_true]
    exact (hP i h k).choose_spec
  refine ⟨chain F, fun i hi => ?_, fun k hk i => ?_⟩
  · rw [chain]
    exact hloc i hi _ _ (fun j hj => by simp only [hj, dite_true]) _ (hF i hi _).1
  · induction i using Nat.strong_induction_on with
    | _ i ih =>
      intro hi
      rw [chain]
      refine (hF i hi _).2 _ (hloc i hi k _ (fun j hj => ?_) _ (hk i hi))
      simp only [hj, dite_true, ih j hj (hj.trans hi)]

/-- Multiples of a parameter meet a finite set that does not contain zero only finitely often. -/
theorem finite_scale {S : Set ℝ} (hS : S.Finite) (h0 : (0 : ℝ) ∉ S) (c : ℝ) : {t | c * t ∈ S}.Finite := by
  by_cases hc : c = 0
  · subst hc
    simp only [zero_mul, h0]
    exact Set.finite_empty
  · exact hS.preimage fun x _ y _ h => mul_left_cancel₀ hc h

end Verif.Solve
