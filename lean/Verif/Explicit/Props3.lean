import Verif.Explicit.Props2

/-!
C128: the steps exist, and runs of many steps.
-/

namespace Verif.Explicit

open Finset Verif.Contract Verif.Dg

variable {V : Type*} [AddCommGroup V] [Module ℝ V]

section

variable (E : Eqn V) (H : Submodule ℝ V) (W : V → V) [FiniteDimensional ℝ H] (hE : HasEnergy E H W)
  (hl : LinearEqn E W) (hdef : ∀ x ∈ H, E.mass x (W x) = 0 → x = 0) (hW : ∀ w ∈ H, ∃ y ∈ H, W y = w)

include hE hl hdef hW

/-- C128: the system for a tendency has exactly one solution. -/
theorem C128_tendency (dt : ℝ) (u : V) : ∃! k, Tendency E dt H u k := by
  have he := hE.energy
  obtain ⟨e, hed⟩ : ∃ e : V → V → ℝ, e = fun x y => E.mass x (W y) := ⟨_, rfl⟩
  obtain ⟨r, hrd⟩ : ∃ r : V → V → ℝ, r = fun x y => E.res x x (W y) := ⟨_, rfl⟩
  have he' : IsEnergy e := hed ▸ he
  have hr : Bilin r := hrd ▸ hl
  have hev : ∀ x y, e x y = E.mass x (W y) := fun x y => by rw [hed]
  have hrv : ∀ x y, r x y = E.res x x (W y) := fun x y => by rw [hrd]
  let L : H →ₗ[ℝ] Module.Dual ℝ H := LinearMap.mk₂ ℝ (fun x y : H => e x y)
    (fun _ _ _ => he'.lin.add_left _ _ _) (fun _ _ _ => he'.lin.smul_left _ _ _) (fun _ _ _ => he'.lin.add_right _ _ _)
    fun _ _ _ => he'.lin.smul_right _ _ _
  have hL : ∀ x y : H, L x y = e x y := fun _ _ => rfl
  have hinj : Function.Injective L := by
    rw [← LinearMap.ker_eq_bot, LinearMap.ker_eq_bot']
    intro x hx
    have h1 : L x x = 0 := by rw [hx]; rfl
    rw [hL, hev] at h1
    exact Subtype.ext (hdef x x.2 h1)
  have hsurj : Function.Surjective L :=
    (LinearMap.injective_iff_surjective_of_finrank_eq_finrank Subspace.dual_finrank_eq.symm).1 hinj
  let R : Module.Dual ℝ H :=
    { toFun := fun y => dt * r u y
      map_add' := fun y z => by rw [Submodule.coe_add, hr.add_right]; ring
      map_smul' := fun t y => by rw [Submodule.coe_smul, hr.smul_right, RingHom.id_apply, smul_eq_mul]; ring }
  have hR : ∀ y : H, R y = dt * r u y := fun _ => rfl
  have key : ∀ k : H, Tendency E dt H u k ↔ L k = R := by
    intro k
    constructor
    · intro h
      ext y
      rw [hL, hR, hev, hrv]
      exact h.2 _ (hE.maps y y.2)
    · intro h
      refine ⟨k.2, fun w hw => ?_⟩
      obtain ⟨y, hy, rfl⟩ := hW w hw
      have := LinearMap.congr_fun h ⟨y, hy⟩
      rw [hL, hR, hev, hrv] at this
      exact this
  obtain ⟨k, hk⟩ := hsurj R
  refine ⟨k, (key k).2 hk, fun z hz => ?_⟩
  have := (key ⟨z, hz.1⟩).1 hz
  exact congrArg Subtype.val (hinj (this.trans hk.symm))

/-- C128: `SSPRK33` can take a step from every function, and stays in the function space. -/
theorem C128_step (dt : ℝ) (old : V) (ho : old ∈ H) : ∃ new ∈ H, Ssprk33Step E dt H old new := by
  have T := C128_tendency E H W hE hl hdef hW dt
  choose k hk _ using T
  have m1 : k old + old ∈ H := H.add_mem (hk old).1 ho
  obtain ⟨s1, hs1⟩ : ∃ s, s = k old + old := ⟨_, rfl⟩
  obtain ⟨s2, hs2⟩ : ∃ s, s = (1 / 4 : ℝ) • k s1 + ((3 / 4 : ℝ) • old + (1 / 4 : ℝ) • s1) := ⟨_, rfl⟩
  obtain ⟨s3, hs3⟩ : ∃ s, s = (2 / 3 : ℝ) • k s2 + ((1 / 3 : ℝ) • old + (2 / 3 : ℝ) • s2) := ⟨_, rfl⟩
  have n1 : s1 ∈ H := hs1 ▸ m1
  have n2 : s2 ∈ H := hs2 ▸ H.add_mem (H.smul_mem _ (hk s1).1) (H.add_mem (H.smul_mem _ ho) (H.smul_mem _ n1))
  have n3 : s3 ∈ H := hs3 ▸ H.add_mem (H.smul_mem _ (hk s2).1) (H.add_mem (H.smul_mem _ ho) (H.smul_mem _ n2))
  refine ⟨s3, n3, _, RK.ssprk33_conv, fun i => [old, s1, s2, s3].getD i 0, fun i => k ([old, s1, s2, s3].getD i 0), rfl,
    fun i hi => ⟨hk _, ?_⟩, rfl⟩
  have hn : RK.ssprk33.n = 3 := rfl
  have hi : i < 3 := hi
  interval_cases i <;>
    simp only [sum_range_succ, sum_range_zero, RK.Tableau.alpha, RK.Tableau.beta, RK.ssprk33_at0_al, RK.ssprk33_at0_be] <;>
    norm_num [hn]
  · exact hs1
  · exact hs2
  · exact hs3

end

/-- C128: the energy does not grow over a run of any number of steps, of lengths that may differ. -/
theorem C128_run (E : Eqn V) (H : Submodule ℝ V) (W : V → V) (dt : ℕ → ℝ) (u : ℕ → V) (hE : HasEnergy E H W) (hl : LinearEqn E W)
    (hp : PassiveEqn E H W) (h0 : ∀ n, u n ∈ H) (hdt : ∀ n, 0 ≤ dt n) (hc : ∀ n, Limit E (dt n) H W 1)
    (h : ∀ n, Ssprk33Step E (dt n) H (u n) (u (n + 1))) (n : ℕ) : E.mass (u n) (W (u n)) ≤ E.mass (u 0) (W (u 0)) := by
  induction n with
  | zero => exact le_refl _
  | succ n ih => exact (C128_ssprk33 E H W (dt n) (u n) (u (n + 1)) hE hl hp (h0 n) (hdt n) (hc n) (h n)).trans ih

/-- C128: a shorter time step keeps within a limit. -/
theorem C128_limit_mono (E : Eqn V) (H : Submodule ℝ V) (W : V → V) (dt dt' c : ℝ) (hE : HasEnergy E H W)
    (hz : 0 < dt) (h1 : dt ≤ dt') (h : Limit E dt' H W c) : Limit E dt H W c := by
  intro x hx k hk hy
  have he := hE.energy
  have hd : 0 < dt' := hz.trans_le h1
  have b := h x hx ((dt' / dt) • k) (H.smul_mem _ hk) fun y hy' => by
    have := he.lin.smul_left (dt' / dt) k y
    rw [this, hy y hy']
    field_simp
  have e1 := he.lin.smul_left (dt' / dt) k ((dt' / dt) • k)
  have e2 := he.lin.smul_right (dt' / dt) k k
  rw [e1, e2] at b
  have n := he.nonneg k
  have : 1 ≤ dt' / dt := by rwa [le_div_iff₀ hz, one_mul]
  nlinarith [mul_nonneg (by nlinarith : (0 : ℝ) ≤ dt' / dt * (dt' / dt) - 1) n]

end Verif.Explicit
