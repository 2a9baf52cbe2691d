import Verif.Contract.Props3

/-!
C127: the two forms of diagonally implicit methods agree, and the methods with three and four stages.
-/

namespace Verif.Contract

open Finset Verif.Dg

variable {V : Type*} [AddCommGroup V] [Module ℝ V]

/-! ### The two forms -/

section Forms

variable {E : Eqn V} {H : Submodule ℝ V} {W : V → V}

theorem eq_zero_of_mass (hdef : ∀ x ∈ H, E.mass x (W x) = 0 → x = 0) {x : V} (hx : x ∈ H)
    (h : ∀ y ∈ H, E.mass x (W y) = 0) : x = 0 := hdef x hx (h x hx)

/-- C127: for tables whose last row are the weights, `DIRKGenericUForm` and `DIRKGeneric` give the same solutions. -/
theorem C127_forms (T : RK.Tableau) (dt : ℝ) (semi : Bool) (old new : V) (hE : HasEnergy E H W) (hf : Fixed E semi)
    (hW : ∀ w ∈ H, ∃ y ∈ H, W y = w) (hdef : ∀ x ∈ H, E.mass x (W x) = 0 → x = 0) (hn : 0 < T.n)
    (hstiff : ∀ j < T.n, T.a (T.n - 1) j = T.b j) (hdiag : ∀ i < T.n, T.a i i ≠ 0) (ho : old ∈ H) (hdt : dt ≠ 0) :
    UStep (fun _ => E) T dt semi H old new ↔ TendencyStep (fun _ => E) T dt semi H old new := by
  have hl := hE.energy.lin
  constructor
  · rintro ⟨u, k, hu, hk, rfl⟩
    have hkk : ∀ i < T.n - 1, (T.a i i * dt) • k i = u i - old - ∑ j ∈ range i, (T.a i j * dt) • k j := fun i hi => by
      have hm : (T.a i i * dt) • k i - (u i - old - ∑ j ∈ range i, (T.a i j * dt) • k j) ∈ H :=
        H.sub_mem (H.smul_mem _ (hk i hi).1) (H.sub_mem (H.sub_mem (hu i (by omega)).1 ho)
          (H.sum_mem fun j hj => H.smul_mem _ (hk j (by rw [mem_range] at hj; omega)).1))
      refine sub_eq_zero.1 (eq_zero_of_mass hdef hm fun y hy => ?_)
      have := (hk i hi).2 _ (hE.maps y hy)
      simp only [hE.inner] at this
      rw [hl.sub_left, hl.sub_left, hl.sub_left, hl.smul_left, hl.sum_left]
      simp only [hl.smul_left]
      have e : ∀ j, T.a i j * dt * E.mass (k j) (W y) = dt * T.a i j * E.mass (k j) (W y) := fun j => by ring
      simp only [e]
      linarith
    obtain ⟨k', hk'⟩ : ∃ k' : ℕ → V, k' = fun i => if i < T.n - 1 then k i else
        (T.a i i * dt)⁻¹ • (u i - old - ∑ j ∈ range i, (T.a i j * dt) • k j) := ⟨_, rfl⟩
    have e1 : ∀ j < T.n - 1, k' j = k j := fun j hj => by rw [hk']; exact if_pos hj
    have hs : ∀ i < T.n, ∑ j ∈ range i, (T.a i j * dt) • k' j = ∑ j ∈ range i, (T.a i j * dt) • k j := fun i hi =>
      sum_congr rfl fun j hj => by rw [e1 j (by rw [mem_range] at hj; omega)]
    have hv : ∀ i < T.n, stageValue T dt old k' i = u i := fun i hi => by
      unfold stageValue
      rw [sum_range_succ, hs i hi]
      by_cases h : i < T.n - 1
      · rw [e1 i h, hkk i h]; abel
      · have : k' i = (T.a i i * dt)⁻¹ • (u i - old - ∑ j ∈ range i, (T.a i j * dt) • k j) := by rw [hk']; exact if_neg h
        rw [this, smul_inv_smul₀ (mul_ne_zero (hdiag i hi) hdt)]; abel
    have hkH : ∀ i < T.n, k' i ∈ H := fun i hi => by
      by_cases h : i < T.n - 1
      · rw [e1 i h]; exact (hk i h).1
      · have : k' i = (T.a i i * dt)⁻¹ • (u i - old - ∑ j ∈ range i, (T.a i j * dt) • k j) := by rw [hk']; exact if_neg h
        rw [this]
        exact H.smul_mem _ (H.sub_mem (H.sub_mem (hu i hi).1 ho)
          (H.sum_mem fun j hj => H.smul_mem _ (hk j (by rw [mem_range] at hj; omega)).1))
    refine ⟨k', fun i hi => ⟨hkH i hi, fun w hw => ?_⟩, ?_⟩
    · obtain ⟨y, hy, rfl⟩ := hW w hw
      have h1 := (hu i hi).2 _ hw
      rw [hf.eq] at h1
      rw [hv i hi]
      have h2 : E.res (u i) (stageLin T dt semi old k' i) (W y) = E.res (u i) old (W y) := hf.eq _ _ _ _
      rw [h2, hE.inner]
      have h3 := congrArg (fun x => E.mass x (W y)) (hv i hi)
      simp only [stageValue, sum_range_succ, hs i hi] at h3
      rw [hl.add_left, hl.add_left, hl.smul_left, hl.sum_left] at h3
      simp only [hl.smul_left, hE.inner] at h3 h1
      have e : ∀ j, T.a i j * dt * E.mass (k j) (W y) = dt * T.a i j * E.mass (k j) (W y) := fun j => by ring
      simp only [e] at h3
      have h4 : dt * T.a i i * (E.mass (k' i) (W y) - E.res (u i) old (W y)) = 0 := by linarith
      have h5 := (mul_eq_zero.1 h4).resolve_left (mul_ne_zero hdt (hdiag i hi))
      linarith
    · rw [← hv (T.n - 1) (by omega)]
      unfold stageValue
      rw [Nat.sub_add_cancel hn]
      congr 1
      exact sum_congr rfl fun j hj => by rw [hstiff j (mem_range.1 hj), mul_comm]
  · rintro ⟨k, hk, rfl⟩
    have hsH : ∀ i < T.n, stageValue T dt old k i ∈ H := fun i hi =>
      H.add_mem ho (H.sum_mem fun j hj => H.smul_mem _ (hk j (by rw [mem_range] at hj; omega)).1)
    have hexp : ∀ i < T.n, ∀ y, E.mass (stageValue T dt old k i) (W y) = E.mass old (W y) +
        (∑ j ∈ range i, dt * T.a i j * E.mass (k j) (W y) + dt * T.a i i * E.mass (k i) (W y)) := fun i hi y => by
      unfold stageValue
      rw [sum_range_succ, hl.add_left, hl.add_left, hl.smul_left, hl.sum_left]
      simp only [hl.smul_left]
      have e : ∀ j, T.a i j * dt * E.mass (k j) (W y) = dt * T.a i j * E.mass (k j) (W y) := fun j => by ring
      simp only [e]
    refine ⟨stageValue T dt old k, k, fun i hi => ⟨hsH i hi, fun w hw => ?_⟩, fun i hi => ⟨(hk i (by omega)).1, fun w hw => ?_⟩, ?_⟩
    · obtain ⟨y, hy, rfl⟩ := hW w hw
      have h1 := (hk i hi).2 _ hw
      have h2 : E.res (stageValue T dt old k i) (stageLin T dt semi old k i) (W y) =
        E.res (stageValue T dt old k i) old (W y) := hf.eq _ _ _ _
      rw [h2, hE.inner] at h1
      rw [hf.eq, hexp i hi]
      simp only [hE.inner]
      have h3 : E.res (stageValue T dt old k i) old (W y) = E.mass (k i) (W y) := by linarith
      rw [h3]; ring
    · obtain ⟨y, hy, rfl⟩ := hW w hw
      rw [hexp i (by omega)]
      simp only [hE.inner]
      ring
    · unfold stageValue
      rw [Nat.sub_add_cancel hn]
      congr 1
      exact sum_congr rfl fun j hj => by rw [hstiff j (mem_range.1 hj), mul_comm]

end Forms

/-- The energy of the stability function of `DIRK33`, with each `w` the tendency of the one before. -/
theorem dirk33_core {e r : V → V → ℝ} (he : IsEnergy e) (hr : Bilin r) (w0 w1 w2 w3 : V)
    (h1 : ∀ y ∈ ({w0, w1, w2, w3} : Set V), e w1 y = r w0 y)
    (h2 : ∀ y ∈ ({w0, w1, w2, w3} : Set V), e w2 y = r w1 y)
    (h3 : ∀ y ∈ ({w0, w1, w2, w3} : Set V), e w3 y = r w2 y) :
    e ((1 : ℝ) • w0 + (-(615199129 / 2000000000) : ℝ) • w1 + (-(7605142105917740172352091521 / 32000000000000000000000000000) : ℝ) • w2) ((1 : ℝ) • w0 + (-(615199129 / 2000000000) : ℝ) • w1 + (-(7605142105917740172352091521 / 32000000000000000000000000000) : ℝ) • w2) =
      e ((1 : ℝ) • w0 + (-(2615199129 / 2000000000) : ℝ) • w1 + (2279755494774119547 / 4000000000000000000 : ℝ) • w2 + (-(662446064918471276784030507 / 8000000000000000000000000000) : ℝ) • w3) ((1 : ℝ) • w0 + (-(2615199129 / 2000000000) : ℝ) • w1 + (2279755494774119547 / 4000000000000000000 : ℝ) • w2 + (-(662446064918471276784030507 / 8000000000000000000000000000) : ℝ) • w3)
      - (-(110696548352091521 / 16000000000000000000000000000)) * e w1 w1
      - (53037229355789946621403384946722987731791468336839906559 / 1024000000000000000000000000000000000000000000000000000000) * e w2 w2
      - (438834788925967461248860661113436072989137699906677049 / 64000000000000000000000000000000000000000000000000000000) * e w3 w3
      + 2 * (1) * r ((1 : ℝ) • w0 + (-(25843186064110696548352091521 / 32000000000000000000000000000) : ℝ) • w1 + (662446064918471276784030507 / 8000000000000000000000000000 : ℝ) • w2) ((1 : ℝ) • w0 + (-(25843186064110696548352091521 / 32000000000000000000000000000) : ℝ) • w1 + (662446064918471276784030507 / 8000000000000000000000000000 : ℝ) • w2)
      + 2 * (85333333323978384334292703281423169719966492544839906559 / 1024000000000000000000000000000000000000000000000000000000) * r ((1 : ℝ) • w1 + (-(14132182718162946580918117063526994651347611832373291804 / 28444444441326128111430901093807723239988830848279968853) : ℝ) • w2) ((1 : ℝ) • w1 + (-(14132182718162946580918117063526994651347611832373291804 / 28444444441326128111430901093807723239988830848279968853) : ℝ) • w2)
      + 2 * (17992404721921234394710597080076494599999710874150539471248491027294348854978054839284585032275812637 / 910222222122436099565788835001847143679642587144959003296000000000000000000000000000000000000000000000) * r ((1 : ℝ) • w2) ((1 : ℝ) • w2) := by
  have hl := he.lin
  simp only [hl.add_left, hl.add_right, hl.smul_left, hl.smul_right, hr.add_left, hr.add_right, hr.smul_left, hr.smul_right]
  have m0 : w0 ∈ ({w0, w1, w2, w3} : Set V) := by simp
  have m1 : w1 ∈ ({w0, w1, w2, w3} : Set V) := by simp
  have m2 : w2 ∈ ({w0, w1, w2, w3} : Set V) := by simp
  have m3 : w3 ∈ ({w0, w1, w2, w3} : Set V) := by simp
  rw [← h1 w0 m0, ← h1 w1 m1, ← h1 w2 m2, ← h2 w0 m0, ← h2 w1 m1, ← h2 w2 m2, ← h3 w0 m0, ← h3 w1 m1, ← h3 w2 m2,
    he.symm w0 w1, he.symm w0 w2, he.symm w0 w3, he.symm w1 w2, he.symm w1 w3, he.symm w2 w3]
  ring

/-- The same for `DIRK43`. -/
theorem dirk43_core {e r : V → V → ℝ} (he : IsEnergy e) (hr : Bilin r) (w0 w1 w2 w3 w4 : V)
    (h1 : ∀ y ∈ ({w0, w1, w2, w3, w4} : Set V), e w1 y = r w0 y)
    (h2 : ∀ y ∈ ({w0, w1, w2, w3, w4} : Set V), e w2 y = r w1 y)
    (h3 : ∀ y ∈ ({w0, w1, w2, w3, w4} : Set V), e w3 y = r w2 y)
    (h4 : ∀ y ∈ ({w0, w1, w2, w3, w4} : Set V), e w4 y = r w3 y) :
    e ((1 : ℝ) • w0 + (-(1) : ℝ) • w1 + (1 / 6 : ℝ) • w3) ((1 : ℝ) • w0 + (-(1) : ℝ) • w1 + (1 / 6 : ℝ) • w3) =
      e ((1 : ℝ) • w0 + (-(2) : ℝ) • w1 + (3 / 2 : ℝ) • w2 + (-(1 / 2) : ℝ) • w3 + (1 / 16 : ℝ) • w4) ((1 : ℝ) • w0 + (-(2) : ℝ) • w1 + (3 / 2 : ℝ) • w2 + (-(1 / 2) : ℝ) • w3 + (1 / 16 : ℝ) • w4)
      - (1 / 24) * e w2 w2
      - (5 / 144) * e w3 w3
      - (1 / 256) * e w4 w4
      + 2 * (1) * r ((1 : ℝ) • w0 + (-(3 / 2) : ℝ) • w1 + (2 / 3 : ℝ) • w2 + (-(1 / 16) : ℝ) • w3) ((1 : ℝ) • w0 + (-(3 / 2) : ℝ) • w1 + (2 / 3 : ℝ) • w2 + (-(1 / 16) : ℝ) • w3)
      + 2 * (1 / 12) * r ((1 : ℝ) • w1 + (-(5 / 4) : ℝ) • w2 + (3 / 8 : ℝ) • w3) ((1 : ℝ) • w1 + (-(5 / 4) : ℝ) • w2 + (3 / 8 : ℝ) • w3)
      + 2 * (29 / 576) * r ((1 : ℝ) • w2 + (-(15 / 58) : ℝ) • w3) ((1 : ℝ) • w2 + (-(15 / 58) : ℝ) • w3)
      + 2 * (91 / 7424) * r ((1 : ℝ) • w3) ((1 : ℝ) • w3) := by
  have hl := he.lin
  simp only [hl.add_left, hl.add_right, hl.smul_left, hl.smul_right, hr.add_left, hr.add_right, hr.smul_left, hr.smul_right]
  have m0 : w0 ∈ ({w0, w1, w2, w3, w4} : Set V) := by simp
  have m1 : w1 ∈ ({w0, w1, w2, w3, w4} : Set V) := by simp
  have m2 : w2 ∈ ({w0, w1, w2, w3, w4} : Set V) := by simp
  have m3 : w3 ∈ ({w0, w1, w2, w3, w4} : Set V) := by simp
  have m4 : w4 ∈ ({w0, w1, w2, w3, w4} : Set V) := by simp
  rw [← h1 w0 m0, ← h1 w1 m1, ← h1 w2 m2, ← h1 w3 m3, ← h2 w0 m0, ← h2 w1 m1, ← h2 w2 m2, ← h2 w3 m3, ← h3 w0 m0, ← h3 w1 m1, ← h3 w2 m2, ← h3 w3 m3, ← h4 w0 m0, ← h4 w1 m1, ← h4 w2 m2, ← h4 w3 m3,
    he.symm w0 w1, he.symm w0 w2, he.symm w0 w3, he.symm w0 w4, he.symm w1 w2, he.symm w1 w3, he.symm w1 w4, he.symm w2 w3, he.symm w2 w4, he.symm w3 w4]
  ring

/-! ### Chains of tendencies -/

/-- `k` is the tendency of `x`. -/
def Drive (e r : V → V → ℝ) (H : Submodule ℝ V) (x k : V) : Prop := k ∈ H ∧ ∀ y ∈ H, e k y = r x y

section Drive

variable {e r : V → V → ℝ} {H : Submodule ℝ V} (he : IsEnergy e) (hr : Bilin r)

include he hr

theorem Drive.add {x k x' k' : V} (h : Drive e r H x k) (h' : Drive e r H x' k') : Drive e r H (x + x') (k + k') :=
  ⟨H.add_mem h.1 h'.1, fun y hy => by rw [he.lin.add_left, hr.add_left, h.2 y hy, h'.2 y hy]⟩

theorem Drive.smul {x k : V} (t : ℝ) (h : Drive e r H x k) : Drive e r H (t • x) (t • k) :=
  ⟨H.smul_mem t h.1, fun y hy => by rw [he.lin.smul_left, hr.smul_left, h.2 y hy]⟩

theorem Drive.sub_smul {x k l : V} (t : ℝ) (h : Drive e r H x k) (h' : Drive e r H k l) :
    Drive e r H (x - t • k) (k - t • l) := by
  have := h.add he hr (h'.smul he hr (-t))
  have e1 : x - t • k = x + (-t) • k := by module
  have e2 : k - t • l = k + (-t) • l := by module
  rwa [e1, e2]

omit hr in
/-- One implicit stage: its right-hand side has at least the energy of the solution and of the change. -/
theorem Drive.stage {x k : V} (t : ℝ) (ht : 0 ≤ t) (h : Drive e r H x k) (hx : x ∈ H) (hp : r x x ≤ 0) :
    e x x + t ^ 2 * e k k ≤ e (x - t • k) (x - t • k) := by
  rw [he.lin.sub_left, he.lin.sub_right, he.lin.sub_right, he.lin.smul_left, he.lin.smul_left, he.lin.smul_right,
    he.lin.smul_right, he.symm x k, h.2 x hx]
  nlinarith [mul_nonneg ht (neg_nonneg.2 hp)]

end Drive

/-- The stages of `DIRK33` as a chain of tendencies. -/
theorem dirk33_chain {e r : V → V → ℝ} {H : Submodule ℝ V} (he : IsEnergy e) (hr : Bilin r) (o u0 u1 u2 k0 k1 k2 n : V)
    (ho : o ∈ H)
    (hu0 : u0 = o + ((871733043 / 2000000000 : ℝ) • k0))
    (hu1 : u1 = o + ((1128266957 / 4000000000 : ℝ) • k0 + (871733043 / 2000000000 : ℝ) • k1))
    (hu2 : u2 = o + ((9667973193225880453 / 8000000000000000000 : ℝ) • k0 + (-(5154905365225880453 / 8000000000000000000) : ℝ) • k1 + (871733043 / 2000000000 : ℝ) • k2))
    (h0 : Drive e r H u0 k0)
    (h1 : Drive e r H u1 k1)
    (h2 : Drive e r H u2 k2)
    (hn : n = o + ((9667973193225880453 / 8000000000000000000 : ℝ) • k0 + (-(5154905365225880453 / 8000000000000000000) : ℝ) • k1 + (871733043 / 2000000000 : ℝ) • k2)) :
    ∃ w0 w1 w2 w3, w0 ∈ H ∧ Drive e r H w0 w1 ∧ Drive e r H w1 w2 ∧ Drive e r H w2 w3 ∧
      o = (1 : ℝ) • w0 + (-(2615199129 / 2000000000) : ℝ) • w1 + (2279755494774119547 / 4000000000000000000 : ℝ) • w2 + (-(662446064918471276784030507 / 8000000000000000000000000000) : ℝ) • w3 ∧
      n = (1 : ℝ) • w0 + (-(615199129 / 2000000000) : ℝ) • w1 + (-(7605142105917740172352091521 / 32000000000000000000000000000) : ℝ) • w2 := by
  have d0 := (((h0.smul he hr (-(18238043957639473634239542395 / 5816109390046377756352091521))).add he hr (h1.smul he hr (30133501333750170182591633916 / 5816109390046377756352091521))).add he hr (h2.smul he hr (-(6079347986064318792000000000 / 5816109390046377756352091521))))
  have d1 := (((h0.smul he hr (-(34567350148903521812000000000 / 5816109390046377756352091521))).add he hr (h1.smul he hr (48515078836903521812000000000 / 5816109390046377756352091521))).add he hr (h2.smul he hr (-(13947728688000000000000000000 / 5816109390046377756352091521))))
  have d2 := (((h0.smul he hr (-(32000000000000000000000000000 / 5816109390046377756352091521))).add he hr (h1.smul he hr (64000000000000000000000000000 / 5816109390046377756352091521))).add he hr (h2.smul he hr (-(32000000000000000000000000000 / 5816109390046377756352091521))))
  have d0 : Drive e r H ((-(18238043957639473634239542395 / 5816109390046377756352091521) : ℝ) • u0 + (30133501333750170182591633916 / 5816109390046377756352091521 : ℝ) • u1 + (-(6079347986064318792000000000 / 5816109390046377756352091521) : ℝ) • u2) ((-(18238043957639473634239542395 / 5816109390046377756352091521) : ℝ) • k0 + (30133501333750170182591633916 / 5816109390046377756352091521 : ℝ) • k1 + (-(6079347986064318792000000000 / 5816109390046377756352091521) : ℝ) • k2) := d0
  have d1 : Drive e r H ((-(34567350148903521812000000000 / 5816109390046377756352091521) : ℝ) • u0 + (48515078836903521812000000000 / 5816109390046377756352091521 : ℝ) • u1 + (-(13947728688000000000000000000 / 5816109390046377756352091521) : ℝ) • u2) ((-(34567350148903521812000000000 / 5816109390046377756352091521) : ℝ) • k0 + (48515078836903521812000000000 / 5816109390046377756352091521 : ℝ) • k1 + (-(13947728688000000000000000000 / 5816109390046377756352091521) : ℝ) • k2) := d1
  have d2 : Drive e r H ((-(32000000000000000000000000000 / 5816109390046377756352091521) : ℝ) • u0 + (64000000000000000000000000000 / 5816109390046377756352091521 : ℝ) • u1 + (-(32000000000000000000000000000 / 5816109390046377756352091521) : ℝ) • u2) ((-(32000000000000000000000000000 / 5816109390046377756352091521) : ℝ) • k0 + (64000000000000000000000000000 / 5816109390046377756352091521 : ℝ) • k1 + (-(32000000000000000000000000000 / 5816109390046377756352091521) : ℝ) • k2) := d2
  have e0 : (-(34567350148903521812000000000 / 5816109390046377756352091521) : ℝ) • u0 + (48515078836903521812000000000 / 5816109390046377756352091521 : ℝ) • u1 + (-(13947728688000000000000000000 / 5816109390046377756352091521) : ℝ) • u2 = (-(18238043957639473634239542395 / 5816109390046377756352091521) : ℝ) • k0 + (30133501333750170182591633916 / 5816109390046377756352091521 : ℝ) • k1 + (-(6079347986064318792000000000 / 5816109390046377756352091521) : ℝ) • k2 := by
    rw [hu0, hu1, hu2]; module
  rw [e0] at d1
  have e1 : (-(32000000000000000000000000000 / 5816109390046377756352091521) : ℝ) • u0 + (64000000000000000000000000000 / 5816109390046377756352091521 : ℝ) • u1 + (-(32000000000000000000000000000 / 5816109390046377756352091521) : ℝ) • u2 = (-(34567350148903521812000000000 / 5816109390046377756352091521) : ℝ) • k0 + (48515078836903521812000000000 / 5816109390046377756352091521 : ℝ) • k1 + (-(13947728688000000000000000000 / 5816109390046377756352091521) : ℝ) • k2 := by
    rw [hu0, hu1, hu2]; module
  rw [e1] at d2
  refine ⟨_, _, _, _, ?_, d0, d1, d2, ?_, ?_⟩
  · rw [hu0, hu1, hu2]
    have m := fun t i (hi : i ∈ H) => H.smul_mem (t : ℝ) hi
    have q : ∀ c0 c1 c2 c3 : ℝ, c3 • o + (c0 • k0 + c1 • k1 + c2 • k2) ∈ H := fun c0 c1 c2 c3 =>
      H.add_mem (m _ _ ho) (H.add_mem (H.add_mem (m _ _ h0.1) (m _ _ h1.1)) (m _ _ h2.1))
    convert q (-(13593131971158342875996253914857544373 / 11632218780092755512704183042000000000)) (17051492350762060734142730966952514791 / 5816109390046377756352091521000000000) (-(2649784259673885107136122028 / 5816109390046377756352091521)) (1) using 1
    module
  · rw [hu0, hu1, hu2]; module
  · rw [hn, hu0, hu1, hu2]; module

/-- The stages of `DIRK43` as a chain of tendencies. -/
theorem dirk43_chain {e r : V → V → ℝ} {H : Submodule ℝ V} (he : IsEnergy e) (hr : Bilin r) (o u0 u1 u2 u3 k0 k1 k2 k3 n : V)
    (ho : o ∈ H)
    (hu0 : u0 = o + ((1 / 2 : ℝ) • k0))
    (hu1 : u1 = o + ((1 / 6 : ℝ) • k0 + (1 / 2 : ℝ) • k1))
    (hu2 : u2 = o + ((-(1 / 2) : ℝ) • k0 + (1 / 2 : ℝ) • k1 + (1 / 2 : ℝ) • k2))
    (hu3 : u3 = o + ((3 / 2 : ℝ) • k0 + (-(3 / 2) : ℝ) • k1 + (1 / 2 : ℝ) • k2 + (1 / 2 : ℝ) • k3))
    (h0 : Drive e r H u0 k0)
    (h1 : Drive e r H u1 k1)
    (h2 : Drive e r H u2 k2)
    (h3 : Drive e r H u3 k3)
    (hn : n = o + ((3 / 2 : ℝ) • k0 + (-(3 / 2) : ℝ) • k1 + (1 / 2 : ℝ) • k2 + (1 / 2 : ℝ) • k3)) :
    ∃ w0 w1 w2 w3 w4, w0 ∈ H ∧ Drive e r H w0 w1 ∧ Drive e r H w1 w2 ∧ Drive e r H w2 w3 ∧ Drive e r H w3 w4 ∧
      o = (1 : ℝ) • w0 + (-(2) : ℝ) • w1 + (3 / 2 : ℝ) • w2 + (-(1 / 2) : ℝ) • w3 + (1 / 16 : ℝ) • w4 ∧
      n = (1 : ℝ) • w0 + (-(1) : ℝ) • w1 + (1 / 6 : ℝ) • w3 := by
  have d0 := (((h0.smul he hr (-(20))).add he hr (h2.smul he hr (18))).add he hr (h3.smul he hr (3)))
  have d1 := ((((h0.smul he hr (-(24))).add he hr (h1.smul he hr (-(12)))).add he hr (h2.smul he hr (30))).add he hr (h3.smul he hr (6)))
  have d2 := ((((h0.smul he hr (-(24))).add he hr (h1.smul he hr (-(36)))).add he hr (h2.smul he hr (48))).add he hr (h3.smul he hr (12)))
  have d3 := ((((h0.smul he hr (-(24))).add he hr (h1.smul he hr (-(72)))).add he hr (h2.smul he hr (72))).add he hr (h3.smul he hr (24)))
  have d0 : Drive e r H ((-(20) : ℝ) • u0 + (18 : ℝ) • u2 + (3 : ℝ) • u3) ((-(20) : ℝ) • k0 + (18 : ℝ) • k2 + (3 : ℝ) • k3) := d0
  have d1 : Drive e r H ((-(24) : ℝ) • u0 + (-(12) : ℝ) • u1 + (30 : ℝ) • u2 + (6 : ℝ) • u3) ((-(24) : ℝ) • k0 + (-(12) : ℝ) • k1 + (30 : ℝ) • k2 + (6 : ℝ) • k3) := d1
  have d2 : Drive e r H ((-(24) : ℝ) • u0 + (-(36) : ℝ) • u1 + (48 : ℝ) • u2 + (12 : ℝ) • u3) ((-(24) : ℝ) • k0 + (-(36) : ℝ) • k1 + (48 : ℝ) • k2 + (12 : ℝ) • k3) := d2
  have d3 : Drive e r H ((-(24) : ℝ) • u0 + (-(72) : ℝ) • u1 + (72 : ℝ) • u2 + (24 : ℝ) • u3) ((-(24) : ℝ) • k0 + (-(72) : ℝ) • k1 + (72 : ℝ) • k2 + (24 : ℝ) • k3) := d3
  have e0 : (-(24) : ℝ) • u0 + (-(12) : ℝ) • u1 + (30 : ℝ) • u2 + (6 : ℝ) • u3 = (-(20) : ℝ) • k0 + (18 : ℝ) • k2 + (3 : ℝ) • k3 := by
    rw [hu0, hu1, hu2, hu3]; module
  rw [e0] at d1
  have e1 : (-(24) : ℝ) • u0 + (-(36) : ℝ) • u1 + (48 : ℝ) • u2 + (12 : ℝ) • u3 = (-(24) : ℝ) • k0 + (-(12) : ℝ) • k1 + (30 : ℝ) • k2 + (6 : ℝ) • k3 := by
    rw [hu0, hu1, hu2, hu3]; module
  rw [e1] at d2
  have e2 : (-(24) : ℝ) • u0 + (-(72) : ℝ) • u1 + (72 : ℝ) • u2 + (24 : ℝ) • u3 = (-(24) : ℝ) • k0 + (-(36) : ℝ) • k1 + (48 : ℝ) • k2 + (12 : ℝ) • k3 := by
    rw [hu0, hu1, hu2, hu3]; module
  rw [e2] at d3
  refine ⟨_, _, _, _, _, ?_, d0, d1, d2, d3, ?_, ?_⟩
  · rw [hu0, hu2, hu3]
    have m := fun t i (hi : i ∈ H) => H.smul_mem (t : ℝ) hi
    have q : ∀ c0 c1 c2 c3 c4 : ℝ, c4 • o + (c0 • k0 + c1 • k1 + c2 • k2 + c3 • k3) ∈ H := fun c0 c1 c2 c3 c4 =>
      H.add_mem (m _ _ ho) (H.add_mem (H.add_mem (H.add_mem (m _ _ h0.1) (m _ _ h1.1)) (m _ _ h2.1)) (m _ _ h3.1))
    convert q (-(29 / 2)) (9 / 2) (21 / 2) (3 / 2) (1) using 1
    module
  · rw [hu0, hu2, hu3]; module
  · rw [hn, hu0, hu2, hu3]; module

/-- C127: one step of `DIRK23`, for equations that may be nonlinear and change from stage to stage. -/
theorem C127_dirk23 (E : ℕ → Eqn V) (H : Submodule ℝ V) (W : V → V) (dt : ℝ) (semi : Bool) (old new : V)
    (e : V → V → ℝ) (hm : ∀ i x y, (E i).mass x (W y) = e x y) (hE : ∀ i, HasEnergy (E i) H W)
    (hp : ∀ i v, Passive (E i) H W v) (ho : old ∈ H) (hdt : 0 ≤ dt)
    (h : TendencyStep E RK.dirk23 dt semi H old new) : e new new ≤ e old old :=
  C127_algebraic E H W RK.dirk23 dt semi old new e hm hE hp ho hdt RK.C21_dirk23.1 algStable_dirk23 h

theorem turn_hasEnergy : HasEnergy turn ⊤ id where
  maps _ _ := trivial
  energy :=
    { lin := by
        refine ⟨fun y => ⟨fun x x' => ?_, fun t x => ?_⟩, fun x => ⟨fun y y' => ?_, fun t y => ?_⟩⟩ <;>
          simp only [turn, id, Prod.fst_add, Prod.snd_add, Prod.smul_fst, Prod.smul_snd, smul_eq_mul] <;> ring
      symm := fun x y => by simp only [turn, id]; ring
      nonneg := fun x => by simp only [turn, id]; nlinarith [mul_self_nonneg x.1, mul_self_nonneg x.2] }
  inner _ _ := rfl

theorem turn_isLinear (v : ℝ × ℝ) : Linear turn id v := by
  refine ⟨fun y => ⟨fun x x' => ?_, fun t x => ?_⟩, fun x => ⟨fun y y' => ?_, fun t y => ?_⟩⟩ <;>
    simp only [turn, id, Prod.fst_add, Prod.snd_add, Prod.smul_fst, Prod.smul_snd, smul_eq_mul] <;> ring

/-- The stages of a step of `DIRK33`. -/
theorem dirk33_drive {E : Eqn V} {H : Submodule ℝ V} {W : V → V} {dt : ℝ} {semi : Bool} {old new : V}
    (hE : HasEnergy E H W) (hr : Bilin fun x y => dt * E.res x old (W y)) (hf : Fixed E semi) (ho : old ∈ H)
    (h : TendencyStep (fun _ => E) RK.dirk33 dt semi H old new) :
    ∃ w0 w1 w2 w3, w0 ∈ H ∧ Drive (fun x y => E.mass x (W y)) (fun x y => dt * E.res x old (W y)) H w0 w1 ∧ Drive (fun x y => E.mass x (W y)) (fun x y => dt * E.res x old (W y)) H w1 w2 ∧ Drive (fun x y => E.mass x (W y)) (fun x y => dt * E.res x old (W y)) H w2 w3 ∧
      old = (1 : ℝ) • w0 + (-(2615199129 / 2000000000) : ℝ) • w1 + (2279755494774119547 / 4000000000000000000 : ℝ) • w2 + (-(662446064918471276784030507 / 8000000000000000000000000000) : ℝ) • w3 ∧
      new = (1 : ℝ) • w0 + (-(615199129 / 2000000000) : ℝ) • w1 + (-(7605142105917740172352091521 / 32000000000000000000000000000) : ℝ) • w2 := by
  obtain ⟨k, hk, hnew⟩ := h
  have hn : RK.dirk33.n = 3 := rfl
  have he := hE.energy
  have hd : ∀ i < 3, Drive (fun x y => E.mass x (W y)) (fun x y => dt * E.res x old (W y)) H (stageValue RK.dirk33 dt old k i) (dt • k i) := fun i hi => by
    obtain ⟨h1, h2⟩ := hk i hi
    refine ⟨H.smul_mem _ h1, fun y hy => ?_⟩
    have h3 := h2 _ (hE.maps y hy)
    have h4 : E.res (stageValue RK.dirk33 dt old k i) (stageLin RK.dirk33 dt semi old k i) (W y) =
      E.res (stageValue RK.dirk33 dt old k i) old (W y) := hf.eq _ _ _ _
    rw [h4, hE.inner] at h3
    have h5 := he.lin.smul_left dt (k i) y
    linear_combination h5 - dt * h3
  have v0 : stageValue RK.dirk33 dt old k 0 = old + ((871733043 / 2000000000 : ℝ) • dt • k 0) := by
    simp only [stageValue, sum_range_succ, sum_range_zero]
    have a00 : RK.dirk33.a 0 0 = (871733043 / 2000000000) := by norm_num [RK.dirk33, RK.mk, RK.vec, RK.γ33, RK.b33₁, RK.b33₂]
    rw [a00]; module
  have v1 : stageValue RK.dirk33 dt old k 1 = old + ((1128266957 / 4000000000 : ℝ) • dt • k 0 + (871733043 / 2000000000 : ℝ) • dt • k 1) := by
    simp only [stageValue, sum_range_succ, sum_range_zero]
    have a10 : RK.dirk33.a 1 0 = (1128266957 / 4000000000) := by norm_num [RK.dirk33, RK.mk, RK.vec, RK.γ33, RK.b33₁, RK.b33₂]
    have a11 : RK.dirk33.a 1 1 = (871733043 / 2000000000) := by norm_num [RK.dirk33, RK.mk, RK.vec, RK.γ33, RK.b33₁, RK.b33₂]
    rw [a10, a11]; module
  have v2 : stageValue RK.dirk33 dt old k 2 = old + ((9667973193225880453 / 8000000000000000000 : ℝ) • dt • k 0 + (-(5154905365225880453 / 8000000000000000000) : ℝ) • dt • k 1 + (871733043 / 2000000000 : ℝ) • dt • k 2) := by
    simp only [stageValue, sum_range_succ, sum_range_zero]
    have a20 : RK.dirk33.a 2 0 = (9667973193225880453 / 8000000000000000000) := by norm_num [RK.dirk33, RK.mk, RK.vec, RK.γ33, RK.b33₁, RK.b33₂]
    have a21 : RK.dirk33.a 2 1 = (-(5154905365225880453 / 8000000000000000000)) := by norm_num [RK.dirk33, RK.mk, RK.vec, RK.γ33, RK.b33₁, RK.b33₂]
    have a22 : RK.dirk33.a 2 2 = (871733043 / 2000000000) := by norm_num [RK.dirk33, RK.mk, RK.vec, RK.γ33, RK.b33₁, RK.b33₂]
    rw [a20, a21, a22]; module
  have vn : new = old + ((9667973193225880453 / 8000000000000000000 : ℝ) • dt • k 0 + (-(5154905365225880453 / 8000000000000000000) : ℝ) • dt • k 1 + (871733043 / 2000000000 : ℝ) • dt • k 2) := by
    rw [hnew, hn]
    simp only [sum_range_succ, sum_range_zero]
    have b0 : RK.dirk33.b 0 = (9667973193225880453 / 8000000000000000000) := by norm_num [RK.dirk33, RK.mk, RK.vec, RK.γ33, RK.b33₁, RK.b33₂]
    have b1 : RK.dirk33.b 1 = (-(5154905365225880453 / 8000000000000000000)) := by norm_num [RK.dirk33, RK.mk, RK.vec, RK.γ33, RK.b33₁, RK.b33₂]
    have b2 : RK.dirk33.b 2 = (871733043 / 2000000000) := by norm_num [RK.dirk33, RK.mk, RK.vec, RK.γ33, RK.b33₁, RK.b33₂]
    rw [b0, b1, b2]; module
  exact dirk33_chain he hr old _ _ _ _ _ _ new ho
    v0 v1 v2 (hd 0 (by norm_num)) (hd 1 (by norm_num)) (hd 2 (by norm_num)) vn

/-- C127: one step of `DIRK33` as printed: the energy grows by less than one part in 10¹⁰. -/
theorem C127_dirk33 (E : Eqn V) (H : Submodule ℝ V) (W : V → V) (dt : ℝ) (semi : Bool) (old new : V)
    (hE : HasEnergy E H W) (hl : Linear E W old) (hf : Fixed E semi) (hp : Passive E H W old) (ho : old ∈ H)
    (hdt : 0 ≤ dt) (h : TendencyStep (fun _ => E) RK.dirk33 dt semi H old new) :
    E.mass new (W new) ≤ (1 + 1 / 10 ^ 10) * E.mass old (W old) := by
  have he := hE.energy
  have hr : Bilin (fun x y => dt * E.res x old (W y)) := ⟨fun y => (hl.1 y).left dt, fun x => (hl.2 x).left dt⟩
  have hpr : ∀ x ∈ H, dt * E.res x old (W x) ≤ 0 := fun x hx => mul_nonpos_of_nonneg_of_nonpos hdt (hp x hx)
  obtain ⟨w0, w1, w2, w3, m0, d0, d1, d2, eo, en⟩ := dirk33_drive hE hr hf ho h
  have hS : ∀ y ∈ ({w0, w1, w2, w3} : Set V), y ∈ H := by
    simp only [Set.mem_insert_iff, Set.mem_singleton_iff, forall_eq_or_imp, forall_eq]
    exact ⟨m0, d0.1, d1.1, d2.1⟩
  have key := dirk33_core he hr w0 w1 w2 w3 (fun y hy => d0.2 y (hS y hy)) (fun y hy => d1.2 y (hS y hy)) (fun y hy => d2.2 y (hS y hy))
  rw [← eo, ← en] at key
  have p0 := hpr _ (show (1 : ℝ) • w0 + (-(25843186064110696548352091521 / 32000000000000000000000000000) : ℝ) • w1 + (662446064918471276784030507 / 8000000000000000000000000000 : ℝ) • w2 ∈ H from (H.add_mem (H.add_mem (H.smul_mem _ m0) (H.smul_mem _ d0.1)) (H.smul_mem _ d1.1)))
  have p1 := hpr _ (show (1 : ℝ) • w1 + (-(14132182718162946580918117063526994651347611832373291804 / 28444444441326128111430901093807723239988830848279968853) : ℝ) • w2 ∈ H from (H.add_mem (H.smul_mem _ d0.1) (H.smul_mem _ d1.1)))
  have p2 := hpr _ (show (1 : ℝ) • w2 ∈ H from (H.smul_mem _ d1.1))
  have q0 := he.nonneg w0
  have q1 := he.nonneg w1
  have q2 := he.nonneg w2
  have q3 := he.nonneg w3
  have s0 := d0.sub_smul he hr (4358665215 / 10000000000) d1
  have s1 := d1.sub_smul he hr (4358665215 / 10000000000) d2
  have t0 := s0.sub_smul he hr (4358665215 / 10000000000) s1
  have z0 := d0.stage he (4358665215 / 10000000000) (by norm_num) m0 (hpr _ m0)
  have m1 := H.sub_mem m0 (H.smul_mem (4358665215 / 10000000000) d0.1)
  have z1 := s0.stage he (4358665215 / 10000000000) (by norm_num) m1 (hpr _ m1)
  have m2 := H.sub_mem m1 (H.smul_mem (4358665215 / 10000000000) s0.1)
  have z2 := t0.stage he (4358665215 / 10000000000) (by norm_num) m2 (hpr _ m2)
  have eo' : w0 - ((4358665215 / 10000000000) : ℝ) • w1 - ((4358665215 / 10000000000) : ℝ) • (w1 - ((4358665215 / 10000000000) : ℝ) • w2) -
      ((4358665215 / 10000000000) : ℝ) • (w1 - ((4358665215 / 10000000000) : ℝ) • w2 - ((4358665215 / 10000000000) : ℝ) • (w2 - ((4358665215 / 10000000000) : ℝ) • w3)) = old := by
    rw [eo]; module
  rw [eo'] at z2
  have y1 := he.nonneg (w1 - ((4358665215 / 10000000000) : ℝ) • w2)
  have y2 := he.nonneg (w1 - ((4358665215 / 10000000000) : ℝ) • w2 - ((4358665215 / 10000000000) : ℝ) • (w2 - ((4358665215 / 10000000000) : ℝ) • w3))
  linarith

/-- C127: the same in the form that the solvers use (rungekutta.py:758), for mass forms that are definite. -/
theorem C127_dirk33_uform (E : Eqn V) (H : Submodule ℝ V) (W : V → V) (dt : ℝ) (semi : Bool) (old new : V)
    (hE : HasEnergy E H W) (hW : ∀ w ∈ H, ∃ y ∈ H, W y = w) (hdef : ∀ x ∈ H, E.mass x (W x) = 0 → x = 0)
    (hl : Linear E W old) (hf : Fixed E semi) (hp : Passive E H W old) (ho : old ∈ H)
    (hdt : 0 < dt) (h : UStep (fun _ => E) RK.dirk33 dt semi H old new) :
    E.mass new (W new) ≤ (1 + 1 / 10 ^ 10) * E.mass old (W old) := by
  have hn : RK.dirk33.n = 3 := rfl
  refine C127_dirk33 E H W dt semi old new hE hl hf hp ho hdt.le
    ((C127_forms RK.dirk33 dt semi old new hE hf hW hdef (by norm_num [hn]) (fun j hj => ?_) (fun i hi => ?_) ho hdt.ne').1 h)
  · rw [hn] at hj ⊢
    interval_cases j <;> rfl
  · rw [hn] at hi
    interval_cases i <;> norm_num [RK.dirk33, RK.mk, RK.vec, RK.γ33]

/-- C127: the digits of `DIRK33` let the energy of an inertial motion grow, if only minutely, when the time step is short. -/
theorem C127_dirk33_violated (dt : ℝ) (semi : Bool) (old new : ℝ × ℝ) (hdt : 0 < dt) (hs : dt ≤ 1 / 10 ^ 5) (h0 : old ≠ 0)
    (h : TendencyStep (fun _ => turn) RK.dirk33 dt semi ⊤ old new) : turn.mass old old < turn.mass new new := by
  have hE : HasEnergy turn ⊤ id := turn_hasEnergy
  have he := hE.energy
  have hf : Fixed turn semi := Or.inr fun _ _ _ _ => rfl
  have hl : Linear turn id old := turn_isLinear old
  have hr : Bilin fun x y => dt * turn.res x old (id y) := ⟨fun y => (hl.1 y).left dt, fun x => (hl.2 x).left dt⟩
  have ho : old ∈ (⊤ : Submodule ℝ (ℝ × ℝ)) := trivial
  obtain ⟨w0, w1, w2, w3, m0, d0, d1, d2, eo, en⟩ := dirk33_drive hE hr hf ho h
  have hS : ∀ y ∈ ({w0, w1, w2, w3} : Set (ℝ × ℝ)), y ∈ (⊤ : Submodule ℝ (ℝ × ℝ)) := by
    simp only [Set.mem_insert_iff, Set.mem_singleton_iff, forall_eq_or_imp, forall_eq]
    exact ⟨m0, d0.1, d1.1, d2.1⟩
  have key := dirk33_core he hr w0 w1 w2 w3 (fun y hy => d0.2 y (hS y hy)) (fun y hy => d1.2 y (hS y hy)) (fun y hy => d2.2 y (hS y hy))
  rw [← eo, ← en] at key
  have hz : ∀ x : ℝ × ℝ, dt * turn.res x old (id x) = 0 := fun x => by simp only [turn, id]; ring
  have hn : ∀ x k : ℝ × ℝ, Drive (fun x y => turn.mass x (id y)) (fun x y => dt * turn.res x old (id y)) ⊤ x k →
      turn.mass k k = dt ^ 2 * turn.mass x x := fun x k hk => by
    have h1 := hk.2 (1, 0) trivial
    have h2 := hk.2 (0, 1) trivial
    simp only [turn, id, mul_one, mul_zero, add_zero, zero_add, sub_zero, zero_sub] at h1 h2 ⊢
    rw [h1, h2]; ring
  simp only [hz] at key
  have n0 := hn _ _ d0
  have n1 := hn _ _ d1
  have n2 := hn _ _ d2
  have hw : 0 < turn.mass w0 w0 := by
    have e1 : 0 ≤ turn.mass w0 w0 := he.nonneg w0
    refine lt_of_le_of_ne e1 fun hc => h0 ?_
    have z : ∀ x : ℝ × ℝ, turn.mass x x = 0 → x = 0 := fun x hx => by
      simp only [turn] at hx
      ext
      · change x.1 = 0
        nlinarith [mul_self_nonneg x.1, mul_self_nonneg x.2]
      · change x.2 = 0
        nlinarith [mul_self_nonneg x.1, mul_self_nonneg x.2]
    have a0 := z _ hc.symm
    have a1 := z w1 (by rw [n0, ← hc, mul_zero])
    have a2 := z w2 (by rw [n1, n0, ← hc, mul_zero, mul_zero])
    have a3 := z w3 (by rw [n2, n1, n0, ← hc, mul_zero, mul_zero, mul_zero])
    rw [eo, a0, a1, a2, a3]; simp
  simp only [id] at key
  rw [n2, n1, n0] at key
  have hd2 : dt ^ 2 ≤ 1 / 10 ^ 10 := by
    have := mul_le_mul hs hs hdt.le (by norm_num)
    norm_num at this ⊢
    nlinarith
  have hd3 : 0 < dt ^ 2 := by positivity
  have pw : 0 < dt ^ 2 * turn.mass w0 w0 := mul_pos hd3 hw
  have pw2 : dt ^ 2 * (dt ^ 2 * turn.mass w0 w0) ≤ 1 / 10 ^ 10 * (dt ^ 2 * turn.mass w0 w0) :=
    mul_le_mul_of_nonneg_right hd2 pw.le
  have pw3 : dt ^ 2 * (dt ^ 2 * (dt ^ 2 * turn.mass w0 w0)) ≤ 1 / 10 ^ 10 * (1 / 10 ^ 10 * (dt ^ 2 * turn.mass w0 w0)) :=
    mul_le_mul hd2 pw2 (by positivity) (by norm_num)
  rw [key]
  linarith

/-- The stages of a step of `DIRK43`. -/
theorem dirk43_drive {E : Eqn V} {H : Submodule ℝ V} {W : V → V} {dt : ℝ} {semi : Bool} {old new : V}
    (hE : HasEnergy E H W) (hr : Bilin fun x y => dt * E.res x old (W y)) (hf : Fixed E semi) (ho : old ∈ H)
    (h : TendencyStep (fun _ => E) RK.dirk43 dt semi H old new) :
    ∃ w0 w1 w2 w3 w4, w0 ∈ H ∧ Drive (fun x y => E.mass x (W y)) (fun x y => dt * E.res x old (W y)) H w0 w1 ∧ Drive (fun x y => E.mass x (W y)) (fun x y => dt * E.res x old (W y)) H w1 w2 ∧ Drive (fun x y => E.mass x (W y)) (fun x y => dt * E.res x old (W y)) H w2 w3 ∧ Drive (fun x y => E.mass x (W y)) (fun x y => dt * E.res x old (W y)) H w3 w4 ∧
      old = (1 : ℝ) • w0 + (-(2) : ℝ) • w1 + (3 / 2 : ℝ) • w2 + (-(1 / 2) : ℝ) • w3 + (1 / 16 : ℝ) • w4 ∧
      new = (1 : ℝ) • w0 + (-(1) : ℝ) • w1 + (1 / 6 : ℝ) • w3 := by
  obtain ⟨k, hk, hnew⟩ := h
  have hn : RK.dirk43.n = 4 := rfl
  have he := hE.energy
  have hd : ∀ i < 4, Drive (fun x y => E.mass x (W y)) (fun x y => dt * E.res x old (W y)) H (stageValue RK.dirk43 dt old k i) (dt • k i) := fun i hi => by
    obtain ⟨h1, h2⟩ := hk i hi
    refine ⟨H.smul_mem _ h1, fun y hy => ?_⟩
    have h3 := h2 _ (hE.maps y hy)
    have h4 : E.res (stageValue RK.dirk43 dt old k i) (stageLin RK.dirk43 dt semi old k i) (W y) =
      E.res (stageValue RK.dirk43 dt old k i) old (W y) := hf.eq _ _ _ _
    rw [h4, hE.inner] at h3
    have h5 := he.lin.smul_left dt (k i) y
    linear_combination h5 - dt * h3
  have v0 : stageValue RK.dirk43 dt old k 0 = old + ((1 / 2 : ℝ) • dt • k 0) := by
    simp only [stageValue, sum_range_succ, sum_range_zero]
    have a00 : RK.dirk43.a 0 0 = (1 / 2) := by norm_num [RK.dirk43, RK.mk, RK.vec]
    rw [a00]; module
  have v1 : stageValue RK.dirk43 dt old k 1 = old + ((1 / 6 : ℝ) • dt • k 0 + (1 / 2 : ℝ) • dt • k 1) := by
    simp only [stageValue, sum_range_succ, sum_range_zero]
    have a10 : RK.dirk43.a 1 0 = (1 / 6) := by norm_num [RK.dirk43, RK.mk, RK.vec]
    have a11 : RK.dirk43.a 1 1 = (1 / 2) := by norm_num [RK.dirk43, RK.mk, RK.vec]
    rw [a10, a11]; module
  have v2 : stageValue RK.dirk43 dt old k 2 = old + ((-(1 / 2) : ℝ) • dt • k 0 + (1 / 2 : ℝ) • dt • k 1 + (1 / 2 : ℝ) • dt • k 2) := by
    simp only [stageValue, sum_range_succ, sum_range_zero]
    have a20 : RK.dirk43.a 2 0 = (-(1 / 2)) := by norm_num [RK.dirk43, RK.mk, RK.vec]
    have a21 : RK.dirk43.a 2 1 = (1 / 2) := by norm_num [RK.dirk43, RK.mk, RK.vec]
    have a22 : RK.dirk43.a 2 2 = (1 / 2) := by norm_num [RK.dirk43, RK.mk, RK.vec]
    rw [a20, a21, a22]; module
  have v3 : stageValue RK.dirk43 dt old k 3 = old + ((3 / 2 : ℝ) • dt • k 0 + (-(3 / 2) : ℝ) • dt • k 1 + (1 / 2 : ℝ) • dt • k 2 + (1 / 2 : ℝ) • dt • k 3) := by
    simp only [stageValue, sum_range_succ, sum_range_zero]
    have a30 : RK.dirk43.a 3 0 = (3 / 2) := by norm_num [RK.dirk43, RK.mk, RK.vec]
    have a31 : RK.dirk43.a 3 1 = (-(3 / 2)) := by norm_num [RK.dirk43, RK.mk, RK.vec]
    have a32 : RK.dirk43.a 3 2 = (1 / 2) := by norm_num [RK.dirk43, RK.mk, RK.vec]
    have a33 : RK.dirk43.a 3 3 = (1 / 2) := by norm_num [RK.dirk43, RK.mk, RK.vec]
    rw [a30, a31, a32, a33]; module
  have vn : new = old + ((3 / 2 : ℝ) • dt • k 0 + (-(3 / 2) : ℝ) • dt • k 1 + (1 / 2 : ℝ) • dt • k 2 + (1 / 2 : ℝ) • dt • k 3) := by
    rw [hnew, hn]
    simp only [sum_range_succ, sum_range_zero]
    have b0 : RK.dirk43.b 0 = (3 / 2) := by norm_num [RK.dirk43, RK.mk, RK.vec]
    have b1 : RK.dirk43.b 1 = (-(3 / 2)) := by norm_num [RK.dirk43, RK.mk, RK.vec]
    have b2 : RK.dirk43.b 2 = (1 / 2) := by norm_num [RK.dirk43, RK.mk, RK.vec]
    have b3 : RK.dirk43.b 3 = (1 / 2) := by norm_num [RK.dirk43, RK.mk, RK.vec]
    rw [b0, b1, b2, b3]; module
  exact dirk43_chain he hr old _ _ _ _ _ _ _ _ new ho
    v0 v1 v2 v3 (hd 0 (by norm_num)) (hd 1 (by norm_num)) (hd 2 (by norm_num)) (hd 3 (by norm_num)) vn

/-- C127: one step of `DIRK43`. -/
theorem C127_dirk43 (E : Eqn V) (H : Submodule ℝ V) (W : V → V) (dt : ℝ) (semi : Bool) (old new : V)
    (hE : HasEnergy E H W) (hl : Linear E W old) (hf : Fixed E semi) (hp : Passive E H W old) (ho : old ∈ H)
    (hdt : 0 ≤ dt) (h : TendencyStep (fun _ => E) RK.dirk43 dt semi H old new) :
    E.mass new (W new) ≤ E.mass old (W old) := by
  have he := hE.energy
  have hr : Bilin (fun x y => dt * E.res x old (W y)) := ⟨fun y => (hl.1 y).left dt, fun x => (hl.2 x).left dt⟩
  have hpr : ∀ x ∈ H, dt * E.res x old (W x) ≤ 0 := fun x hx => mul_nonpos_of_nonneg_of_nonpos hdt (hp x hx)
  obtain ⟨w0, w1, w2, w3, w4, m0, d0, d1, d2, d3, eo, en⟩ := dirk43_drive hE hr hf ho h
  have hS : ∀ y ∈ ({w0, w1, w2, w3, w4} : Set V), y ∈ H := by
    simp only [Set.mem_insert_iff, Set.mem_singleton_iff, forall_eq_or_imp, forall_eq]
    exact ⟨m0, d0.1, d1.1, d2.1, d3.1⟩
  have key := dirk43_core he hr w0 w1 w2 w3 w4 (fun y hy => d0.2 y (hS y hy)) (fun y hy => d1.2 y (hS y hy)) (fun y hy => d2.2 y (hS y hy)) (fun y hy => d3.2 y (hS y hy))
  rw [← eo, ← en] at key
  have p0 := hpr _ (show (1 : ℝ) • w0 + (-(3 / 2) : ℝ) • w1 + (2 / 3 : ℝ) • w2 + (-(1 / 16) : ℝ) • w3 ∈ H from (H.add_mem (H.add_mem (H.add_mem (H.smul_mem _ m0) (H.smul_mem _ d0.1)) (H.smul_mem _ d1.1)) (H.smul_mem _ d2.1)))
  have p1 := hpr _ (show (1 : ℝ) • w1 + (-(5 / 4) : ℝ) • w2 + (3 / 8 : ℝ) • w3 ∈ H from (H.add_mem (H.add_mem (H.smul_mem _ d0.1) (H.smul_mem _ d1.1)) (H.smul_mem _ d2.1)))
  have p2 := hpr _ (show (1 : ℝ) • w2 + (-(15 / 58) : ℝ) • w3 ∈ H from (H.add_mem (H.smul_mem _ d1.1) (H.smul_mem _ d2.1)))
  have p3 := hpr _ (show (1 : ℝ) • w3 ∈ H from (H.smul_mem _ d2.1))
  have q0 := he.nonneg w0
  have q1 := he.nonneg w1
  have q2 := he.nonneg w2
  have q3 := he.nonneg w3
  have q4 := he.nonneg w4
  linarith

/-- The same for `DIRKLSPUM2`. -/
theorem dirkLSPUM2_core {e r : V → V → ℝ} (he : IsEnergy e) (hr : Bilin r) (w0 w1 w2 w3 : V)
    (h1 : ∀ y ∈ ({w0, w1, w2, w3} : Set V), e w1 y = r w0 y)
    (h2 : ∀ y ∈ ({w0, w1, w2, w3} : Set V), e w2 y = r w1 y)
    (h3 : ∀ y ∈ ({w0, w1, w2, w3} : Set V), e w3 y = r w2 y) :
    e ((1 : ℝ) • w0 + (5 / 11 : ℝ) • w1 + (13 / 242 : ℝ) • w2) ((1 : ℝ) • w0 + (5 / 11 : ℝ) • w1 + (13 / 242 : ℝ) • w2) =
      e ((1 : ℝ) • w0 + (-(6 / 11) : ℝ) • w1 + (12 / 121 : ℝ) • w2 + (-(8 / 1331) : ℝ) • w3) ((1 : ℝ) • w0 + (-(6 / 11) : ℝ) • w1 + (12 / 121 : ℝ) • w2 + (-(8 / 1331) : ℝ) • w3)
      - (23 / 58564) * e w2 w2
      - (64 / 1771561) * e w3 w3
      + 2 * (1) * r ((1 : ℝ) • w0 + (-(1 / 22) : ℝ) • w1 + (8 / 1331 : ℝ) • w2) ((1 : ℝ) • w0 + (-(1 / 22) : ℝ) • w1 + (8 / 1331 : ℝ) • w2)
      + 2 * (375 / 5324) * r ((1 : ℝ) • w1 + (-(16 / 375) : ℝ) • w2) ((1 : ℝ) • w1 + (-(16 / 375) : ℝ) • w2)
      + 2 * (286816 / 664335375) * r ((1 : ℝ) • w2) ((1 : ℝ) • w2) := by
  have hl := he.lin
  simp only [hl.add_left, hl.add_right, hl.smul_left, hl.smul_right, hr.add_left, hr.add_right, hr.smul_left, hr.smul_right]
  have m0 : w0 ∈ ({w0, w1, w2, w3} : Set V) := by simp
  have m1 : w1 ∈ ({w0, w1, w2, w3} : Set V) := by simp
  have m2 : w2 ∈ ({w0, w1, w2, w3} : Set V) := by simp
  have m3 : w3 ∈ ({w0, w1, w2, w3} : Set V) := by simp
  rw [← h1 w0 m0, ← h1 w1 m1, ← h1 w2 m2, ← h2 w0 m0, ← h2 w1 m1, ← h2 w2 m2, ← h3 w0 m0, ← h3 w1 m1, ← h3 w2 m2,
    he.symm w0 w1, he.symm w0 w2, he.symm w0 w3, he.symm w1 w2, he.symm w1 w3, he.symm w2 w3]
  ring

/-- The stages of `DIRKLSPUM2` as a chain of tendencies. -/
theorem dirkLSPUM2_chain {e r : V → V → ℝ} {H : Submodule ℝ V} (he : IsEnergy e) (hr : Bilin r) (o u0 u1 u2 k0 k1 k2 n : V)
    (ho : o ∈ H)
    (hu0 : u0 = o + ((2 / 11 : ℝ) • k0))
    (hu1 : u1 = o + ((205 / 462 : ℝ) • k0 + (2 / 11 : ℝ) • k1))
    (hu2 : u2 = o + ((2033 / 4620 : ℝ) • k0 + (21 / 110 : ℝ) • k1 + (2 / 11 : ℝ) • k2))
    (h0 : Drive e r H u0 k0)
    (h1 : Drive e r H u1 k1)
    (h2 : Drive e r H u2 k2)
    (hn : n = o + ((24 / 55 : ℝ) • k0 + (1 / 5 : ℝ) • k1 + (4 / 11 : ℝ) • k2)) :
    ∃ w0 w1 w2 w3, w0 ∈ H ∧ Drive e r H w0 w1 ∧ Drive e r H w1 w2 ∧ Drive e r H w2 w3 ∧
      o = (1 : ℝ) • w0 + (-(6 / 11) : ℝ) • w1 + (12 / 121 : ℝ) • w2 + (-(8 / 1331) : ℝ) • w3 ∧
      n = (1 : ℝ) • w0 + (5 / 11 : ℝ) • w1 + (13 / 242 : ℝ) • w2 := by
  have d0 := (((h0.smul he hr (2901 / 8405)).add he hr (h1.smul he hr (2224 / 8405))).add he hr (h2.smul he hr (16 / 41)))
  have d1 := (((h0.smul he hr (-(2266 / 1681))).add he hr (h1.smul he hr (-(1342 / 1681)))).add he hr (h2.smul he hr (88 / 41)))
  have d2 := (((h0.smul he hr (41866 / 8405)).add he hr (h1.smul he hr (-(141086 / 8405)))).add he hr (h2.smul he hr (484 / 41)))
  have d0 : Drive e r H ((2901 / 8405 : ℝ) • u0 + (2224 / 8405 : ℝ) • u1 + (16 / 41 : ℝ) • u2) ((2901 / 8405 : ℝ) • k0 + (2224 / 8405 : ℝ) • k1 + (16 / 41 : ℝ) • k2) := d0
  have d1 : Drive e r H ((-(2266 / 1681) : ℝ) • u0 + (-(1342 / 1681) : ℝ) • u1 + (88 / 41 : ℝ) • u2) ((-(2266 / 1681) : ℝ) • k0 + (-(1342 / 1681) : ℝ) • k1 + (88 / 41 : ℝ) • k2) := d1
  have d2 : Drive e r H ((41866 / 8405 : ℝ) • u0 + (-(141086 / 8405) : ℝ) • u1 + (484 / 41 : ℝ) • u2) ((41866 / 8405 : ℝ) • k0 + (-(141086 / 8405) : ℝ) • k1 + (484 / 41 : ℝ) • k2) := d2
  have e0 : (-(2266 / 1681) : ℝ) • u0 + (-(1342 / 1681) : ℝ) • u1 + (88 / 41 : ℝ) • u2 = (2901 / 8405 : ℝ) • k0 + (2224 / 8405 : ℝ) • k1 + (16 / 41 : ℝ) • k2 := by
    rw [hu0, hu1, hu2]; module
  rw [e0] at d1
  have e1 : (41866 / 8405 : ℝ) • u0 + (-(141086 / 8405) : ℝ) • u1 + (484 / 41 : ℝ) • u2 = (-(2266 / 1681) : ℝ) • k0 + (-(1342 / 1681) : ℝ) • k1 + (88 / 41 : ℝ) • k2 := by
    rw [hu0, hu1, hu2]; module
  rw [e1] at d2
  refine ⟨_, _, _, _, ?_, d0, d1, d2, ?_, ?_⟩
  · rw [hu0, hu1, hu2]
    have m := fun t i (hi : i ∈ H) => H.smul_mem (t : ℝ) hi
    have q : ∀ c0 c1 c2 c3 : ℝ, c3 • o + (c0 • k0 + c1 • k1 + c2 • k2) ∈ H := fun c0 c1 c2 c3 =>
      H.add_mem (m _ _ ho) (H.add_mem (H.add_mem (m _ _ h0.1) (m _ _ h1.1)) (m _ _ h2.1))
    convert q (32534 / 92455) (11336 / 92455) (32 / 451) (1) using 1
    module
  · rw [hu0, hu1, hu2]; module
  · rw [hn, hu0, hu1, hu2]; module

/-- The stages of a step of `DIRKLSPUM2`. -/
theorem dirkLSPUM2_drive {E : Eqn V} {H : Submodule ℝ V} {W : V → V} {dt : ℝ} {semi : Bool} {old new : V}
    (hE : HasEnergy E H W) (hr : Bilin fun x y => dt * E.res x old (W y)) (hf : Fixed E semi) (ho : old ∈ H)
    (h : TendencyStep (fun _ => E) RK.dirkLSPUM2 dt semi H old new) :
    ∃ w0 w1 w2 w3, w0 ∈ H ∧ Drive (fun x y => E.mass x (W y)) (fun x y => dt * E.res x old (W y)) H w0 w1 ∧ Drive (fun x y => E.mass x (W y)) (fun x y => dt * E.res x old (W y)) H w1 w2 ∧ Drive (fun x y => E.mass x (W y)) (fun x y => dt * E.res x old (W y)) H w2 w3 ∧
      old = (1 : ℝ) • w0 + (-(6 / 11) : ℝ) • w1 + (12 / 121 : ℝ) • w2 + (-(8 / 1331) : ℝ) • w3 ∧
      new = (1 : ℝ) • w0 + (5 / 11 : ℝ) • w1 + (13 / 242 : ℝ) • w2 := by
  obtain ⟨k, hk, hnew⟩ := h
  have hn : RK.dirkLSPUM2.n = 3 := rfl
  have he := hE.energy
  have hd : ∀ i < 3, Drive (fun x y => E.mass x (W y)) (fun x y => dt * E.res x old (W y)) H (stageValue RK.dirkLSPUM2 dt old k i) (dt • k i) := fun i hi => by
    obtain ⟨h1, h2⟩ := hk i hi
    refine ⟨H.smul_mem _ h1, fun y hy => ?_⟩
    have h3 := h2 _ (hE.maps y hy)
    have h4 : E.res (stageValue RK.dirkLSPUM2 dt old k i) (stageLin RK.dirkLSPUM2 dt semi old k i) (W y) =
      E.res (stageValue RK.dirkLSPUM2 dt old k i) old (W y) := hf.eq _ _ _ _
    rw [h4, hE.inner] at h3
    have h5 := he.lin.smul_left dt (k i) y
    linear_combination h5 - dt * h3
  have v0 : stageValue RK.dirkLSPUM2 dt old k 0 = old + ((2 / 11 : ℝ) • dt • k 0) := by
    simp only [stageValue, sum_range_succ, sum_range_zero]
    have a00 : RK.dirkLSPUM2.a 0 0 = (2 / 11) := by norm_num [RK.dirkLSPUM2, RK.mk, RK.vec]
    rw [a00]; module
  have v1 : stageValue RK.dirkLSPUM2 dt old k 1 = old + ((205 / 462 : ℝ) • dt • k 0 + (2 / 11 : ℝ) • dt • k 1) := by
    simp only [stageValue, sum_range_succ, sum_range_zero]
    have a10 : RK.dirkLSPUM2.a 1 0 = (205 / 462) := by norm_num [RK.dirkLSPUM2, RK.mk, RK.vec]
    have a11 : RK.dirkLSPUM2.a 1 1 = (2 / 11) := by norm_num [RK.dirkLSPUM2, RK.mk, RK.vec]
    rw [a10, a11]; module
  have v2 : stageValue RK.dirkLSPUM2 dt old k 2 = old + ((2033 / 4620 : ℝ) • dt • k 0 + (21 / 110 : ℝ) • dt • k 1 + (2 / 11 : ℝ) • dt • k 2) := by
    simp only [stageValue, sum_range_succ, sum_range_zero]
    have a20 : RK.dirkLSPUM2.a 2 0 = (2033 / 4620) := by norm_num [RK.dirkLSPUM2, RK.mk, RK.vec]
    have a21 : RK.dirkLSPUM2.a 2 1 = (21 / 110) := by norm_num [RK.dirkLSPUM2, RK.mk, RK.vec]
    have a22 : RK.dirkLSPUM2.a 2 2 = (2 / 11) := by norm_num [RK.dirkLSPUM2, RK.mk, RK.vec]
    rw [a20, a21, a22]; module
  have vn : new = old + ((24 / 55 : ℝ) • dt • k 0 + (1 / 5 : ℝ) • dt • k 1 + (4 / 11 : ℝ) • dt • k 2) := by
    rw [hnew, hn]
    simp only [sum_range_succ, sum_range_zero]
    have b0 : RK.dirkLSPUM2.b 0 = (24 / 55) := by norm_num [RK.dirkLSPUM2, RK.mk, RK.vec]
    have b1 : RK.dirkLSPUM2.b 1 = (1 / 5) := by norm_num [RK.dirkLSPUM2, RK.mk, RK.vec]
    have b2 : RK.dirkLSPUM2.b 2 = (4 / 11) := by norm_num [RK.dirkLSPUM2, RK.mk, RK.vec]
    rw [b0, b1, b2]; module
  exact dirkLSPUM2_chain he hr old _ _ _ _ _ _ new ho
    v0 v1 v2 (hd 0 (by norm_num)) (hd 1 (by norm_num)) (hd 2 (by norm_num)) vn

/-- C127: one step of `DIRKLSPUM2`. -/
theorem C127_dirkLSPUM2 (E : Eqn V) (H : Submodule ℝ V) (W : V → V) (dt : ℝ) (semi : Bool) (old new : V)
    (hE : HasEnergy E H W) (hl : Linear E W old) (hf : Fixed E semi) (hp : Passive E H W old) (ho : old ∈ H)
    (hdt : 0 ≤ dt) (h : TendencyStep (fun _ => E) RK.dirkLSPUM2 dt semi H old new) :
    E.mass new (W new) ≤ E.mass old (W old) := by
  have he := hE.energy
  have hr : Bilin (fun x y => dt * E.res x old (W y)) := ⟨fun y => (hl.1 y).left dt, fun x => (hl.2 x).left dt⟩
  have hpr : ∀ x ∈ H, dt * E.res x old (W x) ≤ 0 := fun x hx => mul_nonpos_of_nonneg_of_nonpos hdt (hp x hx)
  obtain ⟨w0, w1, w2, w3, m0, d0, d1, d2, eo, en⟩ := dirkLSPUM2_drive hE hr hf ho h
  have hS : ∀ y ∈ ({w0, w1, w2, w3} : Set V), y ∈ H := by
    simp only [Set.mem_insert_iff, Set.mem_singleton_iff, forall_eq_or_imp, forall_eq]
    exact ⟨m0, d0.1, d1.1, d2.1⟩
  have key := dirkLSPUM2_core he hr w0 w1 w2 w3 (fun y hy => d0.2 y (hS y hy)) (fun y hy => d1.2 y (hS y hy)) (fun y hy => d2.2 y (hS y hy))
  rw [← eo, ← en] at key
  have p0 := hpr _ (show (1 : ℝ) • w0 + (-(1 / 22) : ℝ) • w1 + (8 / 1331 : ℝ) • w2 ∈ H from (H.add_mem (H.add_mem (H.smul_mem _ m0) (H.smul_mem _ d0.1)) (H.smul_mem _ d1.1)))
  have p1 := hpr _ (show (1 : ℝ) • w1 + (-(16 / 375) : ℝ) • w2 ∈ H from (H.add_mem (H.smul_mem _ d0.1) (H.smul_mem _ d1.1)))
  have p2 := hpr _ (show (1 : ℝ) • w2 ∈ H from (H.smul_mem _ d1.1))
  have q0 := he.nonneg w0
  have q1 := he.nonneg w1
  have q2 := he.nonneg w2
  have q3 := he.nonneg w3
  linarith

/-- The same for `DIRKLPUM2`. -/
theorem dirkLPUM2_core {e r : V → V → ℝ} (he : IsEnergy e) (hr : Bilin r) (w0 w1 w2 w3 : V)
    (h1 : ∀ y ∈ ({w0, w1, w2, w3} : Set V), e w1 y = r w0 y)
    (h2 : ∀ y ∈ ({w0, w1, w2, w3} : Set V), e w2 y = r w1 y)
    (h3 : ∀ y ∈ ({w0, w1, w2, w3} : Set V), e w3 y = r w2 y) :
    e ((1 : ℝ) • w0 + (5 / 11 : ℝ) • w1 + (13 / 242 : ℝ) • w2) ((1 : ℝ) • w0 + (5 / 11 : ℝ) • w1 + (13 / 242 : ℝ) • w2) =
      e ((1 : ℝ) • w0 + (-(6 / 11) : ℝ) • w1 + (12 / 121 : ℝ) • w2 + (-(8 / 1331) : ℝ) • w3) ((1 : ℝ) • w0 + (-(6 / 11) : ℝ) • w1 + (12 / 121 : ℝ) • w2 + (-(8 / 1331) : ℝ) • w3)
      - (23 / 58564) * e w2 w2
      - (64 / 1771561) * e w3 w3
      + 2 * (1) * r ((1 : ℝ) • w0 + (-(1 / 22) : ℝ) • w1 + (8 / 1331 : ℝ) • w2) ((1 : ℝ) • w0 + (-(1 / 22) : ℝ) • w1 + (8 / 1331 : ℝ) • w2)
      + 2 * (375 / 5324) * r ((1 : ℝ) • w1 + (-(16 / 375) : ℝ) • w2) ((1 : ℝ) • w1 + (-(16 / 375) : ℝ) • w2)
      + 2 * (286816 / 664335375) * r ((1 : ℝ) • w2) ((1 : ℝ) • w2) := by
  have hl := he.lin
  simp only [hl.add_left, hl.add_right, hl.smul_left, hl.smul_right, hr.add_left, hr.add_right, hr.smul_left, hr.smul_right]
  have m0 : w0 ∈ ({w0, w1, w2, w3} : Set V) := by simp
  have m1 : w1 ∈ ({w0, w1, w2, w3} : Set V) := by simp
  have m2 : w2 ∈ ({w0, w1, w2, w3} : Set V) := by simp
  have m3 : w3 ∈ ({w0, w1, w2, w3} : Set V) := by simp
  rw [← h1 w0 m0, ← h1 w1 m1, ← h1 w2 m2, ← h2 w0 m0, ← h2 w1 m1, ← h2 w2 m2, ← h3 w0 m0, ← h3 w1 m1, ← h3 w2 m2,
    he.symm w0 w1, he.symm w0 w2, he.symm w0 w3, he.symm w1 w2, he.symm w1 w3, he.symm w2 w3]
  ring

/-- The stages of `DIRKLPUM2` as a chain of tendencies. -/
theorem dirkLPUM2_chain {e r : V → V → ℝ} {H : Submodule ℝ V} (he : IsEnergy e) (hr : Bilin r) (o u0 u1 u2 k0 k1 k2 n : V)
    (ho : o ∈ H)
    (hu0 : u0 = o + ((2 / 11 : ℝ) • k0))
    (hu1 : u1 = o + ((41 / 154 : ℝ) • k0 + (2 / 11 : ℝ) • k1))
    (hu2 : u2 = o + ((289 / 847 : ℝ) • k0 + (42 / 121 : ℝ) • k1 + (2 / 11 : ℝ) • k2))
    (h0 : Drive e r H u0 k0)
    (h1 : Drive e r H u1 k1)
    (h2 : Drive e r H u2 k2)
    (hn : n = o + ((1 / 3 : ℝ) • k0 + (1 / 3 : ℝ) • k1 + (1 / 3 : ℝ) • k2)) :
    ∃ w0 w1 w2 w3, w0 ∈ H ∧ Drive e r H w0 w1 ∧ Drive e r H w1 w2 ∧ Drive e r H w2 w3 ∧
      o = (1 : ℝ) • w0 + (-(6 / 11) : ℝ) • w1 + (12 / 121 : ℝ) • w2 + (-(8 / 1331) : ℝ) • w3 ∧
      n = (1 : ℝ) • w0 + (5 / 11 : ℝ) • w1 + (13 / 242 : ℝ) • w2 := by
  have d0 := (((h0.smul he hr (1015 / 5043)).add he hr (h1.smul he hr (2224 / 5043))).add he hr (h2.smul he hr (44 / 123)))
  have d1 := (((h0.smul he hr (-(3212 / 5043))).add he hr (h1.smul he hr (-(6710 / 5043)))).add he hr (h2.smul he hr (242 / 123)))
  have d2 := (((h0.smul he hr (86515 / 5043)).add he hr (h1.smul he hr (-(141086 / 5043)))).add he hr (h2.smul he hr (1331 / 123)))
  have d0 : Drive e r H ((1015 / 5043 : ℝ) • u0 + (2224 / 5043 : ℝ) • u1 + (44 / 123 : ℝ) • u2) ((1015 / 5043 : ℝ) • k0 + (2224 / 5043 : ℝ) • k1 + (44 / 123 : ℝ) • k2) := d0
  have d1 : Drive e r H ((-(3212 / 5043) : ℝ) • u0 + (-(6710 / 5043) : ℝ) • u1 + (242 / 123 : ℝ) • u2) ((-(3212 / 5043) : ℝ) • k0 + (-(6710 / 5043) : ℝ) • k1 + (242 / 123 : ℝ) • k2) := d1
  have d2 : Drive e r H ((86515 / 5043 : ℝ) • u0 + (-(141086 / 5043) : ℝ) • u1 + (1331 / 123 : ℝ) • u2) ((86515 / 5043 : ℝ) • k0 + (-(141086 / 5043) : ℝ) • k1 + (1331 / 123 : ℝ) • k2) := d2
  have e0 : (-(3212 / 5043) : ℝ) • u0 + (-(6710 / 5043) : ℝ) • u1 + (242 / 123 : ℝ) • u2 = (1015 / 5043 : ℝ) • k0 + (2224 / 5043 : ℝ) • k1 + (44 / 123 : ℝ) • k2 := by
    rw [hu0, hu1, hu2]; module
  rw [e0] at d1
  have e1 : (86515 / 5043 : ℝ) • u0 + (-(141086 / 5043) : ℝ) • u1 + (1331 / 123 : ℝ) • u2 = (-(3212 / 5043) : ℝ) • k0 + (-(6710 / 5043) : ℝ) • k1 + (242 / 123 : ℝ) • k2 := by
    rw [hu0, hu1, hu2]; module
  rw [e1] at d2
  refine ⟨_, _, _, _, ?_, d0, d1, d2, ?_, ?_⟩
  · rw [hu0, hu1, hu2]
    have m := fun t i (hi : i ∈ H) => H.smul_mem (t : ℝ) hi
    have q : ∀ c0 c1 c2 c3 : ℝ, c3 • o + (c0 • k0 + c1 • k1 + c2 • k2) ∈ H := fun c0 c1 c2 c3 =>
      H.add_mem (m _ _ ho) (H.add_mem (H.add_mem (m _ _ h0.1) (m _ _ h1.1)) (m _ _ h2.1))
    convert q (15314 / 55473) (11336 / 55473) (8 / 123) (1) using 1
    module
  · rw [hu0, hu1, hu2]; module
  · rw [hn, hu0, hu1, hu2]; module

/-- The stages of a step of `DIRKLPUM2`. -/
theorem dirkLPUM2_drive {E : Eqn V} {H : Submodule ℝ V} {W : V → V} {dt : ℝ} {semi : Bool} {old new : V}
    (hE : HasEnergy E H W) (hr : Bilin fun x y => dt * E.res x old (W y)) (hf : Fixed E semi) (ho : old ∈ H)
    (h : TendencyStep (fun _ => E) RK.dirkLPUM2 dt semi H old new) :
    ∃ w0 w1 w2 w3, w0 ∈ H ∧ Drive (fun x y => E.mass x (W y)) (fun x y => dt * E.res x old (W y)) H w0 w1 ∧ Drive (fun x y => E.mass x (W y)) (fun x y => dt * E.res x old (W y)) H w1 w2 ∧ Drive (fun x y => E.mass x (W y)) (fun x y => dt * E.res x old (W y)) H w2 w3 ∧
      old = (1 : ℝ) • w0 + (-(6 / 11) : ℝ) • w1 + (12 / 121 : ℝ) • w2 + (-(8 / 1331) : ℝ) • w3 ∧
      new = (1 : ℝ) • w0 + (5 / 11 : ℝ) • w1 + (13 / 242 : ℝ) • w2 := by
  obtain ⟨k, hk, hnew⟩ := h
  have hn : RK.dirkLPUM2.n = 3 := rfl
  have he := hE.energy
  have hd : ∀ i < 3, Drive (fun x y => E.mass x (W y)) (fun x y => dt * E.res x old (W y)) H (stageValue RK.dirkLPUM2 dt old k i) (dt • k i) := fun i hi => by
    obtain ⟨h1, h2⟩ := hk i hi
    refine ⟨H.smul_mem _ h1, fun y hy => ?_⟩
    have h3 := h2 _ (hE.maps y hy)
    have h4 : E.res (stageValue RK.dirkLPUM2 dt old k i) (stageLin RK.dirkLPUM2 dt semi old k i) (W y) =
      E.res (stageValue RK.dirkLPUM2 dt old k i) old (W y) := hf.eq _ _ _ _
    rw [h4, hE.inner] at h3
    have h5 := he.lin.smul_left dt (k i) y
    linear_combination h5 - dt * h3
  have v0 : stageValue RK.dirkLPUM2 dt old k 0 = old + ((2 / 11 : ℝ) • dt • k 0) := by
    simp only [stageValue, sum_range_succ, sum_range_zero]
    have a00 : RK.dirkLPUM2.a 0 0 = (2 / 11) := by norm_num [RK.dirkLPUM2, RK.mk, RK.vec]
    rw [a00]; module
  have v1 : stageValue RK.dirkLPUM2 dt old k 1 = old + ((41 / 154 : ℝ) • dt • k 0 + (2 / 11 : ℝ) • dt • k 1) := by
    simp only [stageValue, sum_range_succ, sum_range_zero]
    have a10 : RK.dirkLPUM2.a 1 0 = (41 / 154) := by norm_num [RK.dirkLPUM2, RK.mk, RK.vec]
    have a11 : RK.dirkLPUM2.a 1 1 = (2 / 11) := by norm_num [RK.dirkLPUM2, RK.mk, RK.vec]
    rw [a10, a11]; module
  have v2 : stageValue RK.dirkLPUM2 dt old k 2 = old + ((289 / 847 : ℝ) • dt • k 0 + (42 / 121 : ℝ) • dt • k 1 + (2 / 11 : ℝ) • dt • k 2) := by
    simp only [stageValue, sum_range_succ, sum_range_zero]
    have a20 : RK.dirkLPUM2.a 2 0 = (289 / 847) := by norm_num [RK.dirkLPUM2, RK.mk, RK.vec]
    have a21 : RK.dirkLPUM2.a 2 1 = (42 / 121) := by norm_num [RK.dirkLPUM2, RK.mk, RK.vec]
    have a22 : RK.dirkLPUM2.a 2 2 = (2 / 11) := by norm_num [RK.dirkLPUM2, RK.mk, RK.vec]
    rw [a20, a21, a22]; module
  have vn : new = old + ((1 / 3 : ℝ) • dt • k 0 + (1 / 3 : ℝ) • dt • k 1 + (1 / 3 : ℝ) • dt • k 2) := by
    rw [hnew, hn]
    simp only [sum_range_succ, sum_range_zero]
    have b0 : RK.dirkLPUM2.b 0 = (1 / 3) := by norm_num [RK.dirkLPUM2, RK.mk, RK.vec]
    have b1 : RK.dirkLPUM2.b 1 = (1 / 3) := by norm_num [RK.dirkLPUM2, RK.mk, RK.vec]
    have b2 : RK.dirkLPUM2.b 2 = (1 / 3) := by norm_num [RK.dirkLPUM2, RK.mk, RK.vec]
    rw [b0, b1, b2]; module
  exact dirkLPUM2_chain he hr old _ _ _ _ _ _ new ho
    v0 v1 v2 (hd 0 (by norm_num)) (hd 1 (by norm_num)) (hd 2 (by norm_num)) vn

/-- C127: one step of `DIRKLPUM2`. -/
theorem C127_dirkLPUM2 (E : Eqn V) (H : Submodule ℝ V) (W : V → V) (dt : ℝ) (semi : Bool) (old new : V)
    (hE : HasEnergy E H W) (hl : Linear E W old) (hf : Fixed E semi) (hp : Passive E H W old) (ho : old ∈ H)
    (hdt : 0 ≤ dt) (h : TendencyStep (fun _ => E) RK.dirkLPUM2 dt semi H old new) :
    E.mass new (W new) ≤ E.mass old (W old) := by
  have he := hE.energy
  have hr : Bilin (fun x y => dt * E.res x old (W y)) := ⟨fun y => (hl.1 y).left dt, fun x => (hl.2 x).left dt⟩
  have hpr : ∀ x ∈ H, dt * E.res x old (W x) ≤ 0 := fun x hx => mul_nonpos_of_nonneg_of_nonpos hdt (hp x hx)
  obtain ⟨w0, w1, w2, w3, m0, d0, d1, d2, eo, en⟩ := dirkLPUM2_drive hE hr hf ho h
  have hS : ∀ y ∈ ({w0, w1, w2, w3} : Set V), y ∈ H := by
    simp only [Set.mem_insert_iff, Set.mem_singleton_iff, forall_eq_or_imp, forall_eq]
    exact ⟨m0, d0.1, d1.1, d2.1⟩
  have key := dirkLPUM2_core he hr w0 w1 w2 w3 (fun y hy => d0.2 y (hS y hy)) (fun y hy => d1.2 y (hS y hy)) (fun y hy => d2.2 y (hS y hy))
  rw [← eo, ← en] at key
  have p0 := hpr _ (show (1 : ℝ) • w0 + (-(1 / 22) : ℝ) • w1 + (8 / 1331 : ℝ) • w2 ∈ H from (H.add_mem (H.add_mem (H.smul_mem _ m0) (H.smul_mem _ d0.1)) (H.smul_mem _ d1.1)))
  have p1 := hpr _ (show (1 : ℝ) • w1 + (-(16 / 375) : ℝ) • w2 ∈ H from (H.add_mem (H.smul_mem _ d0.1) (H.smul_mem _ d1.1)))
  have p2 := hpr _ (show (1 : ℝ) • w2 ∈ H from (H.smul_mem _ d1.1))
  have q0 := he.nonneg w0
  have q1 := he.nonneg w1
  have q2 := he.nonneg w2
  have q3 := he.nonneg w3
  linarith

/-! ### Waves and tracers -/

section Waves

variable {m : Mesh 2} {T : Swe.Term m} {K : Swe.Coeffs m} {bc : ℕ → Option (Swe.Funcs m)} {Hu : Submodule ℝ (Vc m)}
  {He : Submodule ℝ (Sc m)} {H : ℝ}

/-- C127: `DIRK33` of the two-dimensional solver creates less than one part in 10¹⁰ of wave energy, for any time step. -/
theorem C127_waves_dirk33 (B : Basin T K bc Hu He H) (dt : ℝ) (semi : Bool) (old new : State m)
    (hN : semi = true ∨ NoDrag K bc)
    (hdef : ∀ x ∈ Hu.prod He, (∀ c, (∀ i, (x.1 i (.cell c)).v = 0) ∧ (x.2 (.cell c)).v = 0) → x = 0)
    (hw : ∀ c, 0 < m.wC c) (ho : old ∈ Hu.prod He) (hdt : 0 < dt)
    (h : UStep (fun _ => swe T K bc) RK.dirk33 dt semi (Hu.prod He) old new) :
    waveEnergy T.g H new ≤ (1 + 1 / 10 ^ 10) * waveEnergy T.g H old := by
  rw [← B.energy, ← B.energy]
  exact C127_dirk33_uform _ _ _ dt semi old new B.hasEnergy B.onto (B.definite hdef hw) (B.linear' old) (B.fixed semi hN)
    (B.passive old) ho hdt h

/-- C127: so a hundred million steps create at most one percent and a bit. -/
theorem C127_waves_dirk33_run (B : Basin T K bc Hu He H) (dt : ℝ) (semi : Bool) (u : ℕ → State m)
    (hN : semi = true ∨ NoDrag K bc)
    (hdef : ∀ x ∈ Hu.prod He, (∀ c, (∀ i, (x.1 i (.cell c)).v = 0) ∧ (x.2 (.cell c)).v = 0) → x = 0)
    (hw : ∀ c, 0 < m.wC c) (h0 : u 0 ∈ Hu.prod He) (hdt : 0 < dt)
    (h : ∀ n, UStep (fun _ => swe T K bc) RK.dirk33 dt semi (Hu.prod He) (u n) (u (n + 1))) (n : ℕ) :
    waveEnergy T.g H (u n) ≤ (1 + 1 / 10 ^ 10) ^ n * waveEnergy T.g H (u 0) := by
  have hu : ∀ n, u n ∈ Hu.prod He := fun n => by
    cases n with
    | zero => exact h0
    | succ n =>
      obtain ⟨v, k, hv, -, e⟩ := h n
      rw [e]
      have hn : RK.dirk33.n = 3 := rfl
      exact (hv _ (by norm_num [hn])).1
  induction n with
  | zero => simp
  | succ n ih =>
    have := C127_waves_dirk33 B dt semi _ _ hN hdef hw (hu n) hdt (h n)
    calc _ ≤ (1 + 1 / 10 ^ 10) * waveEnergy T.g H (u n) := this
      _ ≤ (1 + 1 / 10 ^ 10) * ((1 + 1 / 10 ^ 10) ^ n * waveEnergy T.g H (u 0)) :=
        mul_le_mul_of_nonneg_left ih (by norm_num)
      _ = _ := by ring

end Waves

section Tracer

open Tracer2

variable {m : Mesh 2} {T : Tracer2.Term m} {F : Flow m} {mu : Option (Sc m)} {bc : ℕ → Option (BFuncs m)}
  {H : Submodule ℝ (Sc m)}

/-- C127: the variance of a tracer under `DIRK33` of the tracer equation. -/
theorem C127_tracer_dirk33 (C : Carried T F mu bc H) (dt : ℝ) (semi : Bool) (old new : Sc m)
    (hdef : ∀ c ∈ H, (∀ x, (c (.cell x)).v = 0) → c = 0) (hw : ∀ x, 0 < m.wC x) (ho : old ∈ H) (hdt : 0 < dt)
    (h : UStep (fun _ => tracer2 T F mu bc) RK.dirk33 dt semi H old new) :
    (m.dx fun x => (new (.cell x)).v ^ 2) ≤ (1 + 1 / 10 ^ 10) * m.dx fun x => (old (.cell x)).v ^ 2 := by
  have e : ∀ a : Sc m, (m.dx fun x => (a (.cell x)).v ^ 2) = ip a a := fun a => dx_congr fun x => sq _
  have hf : Fixed (tracer2 T F mu bc) semi := Or.inr fun _ _ _ _ => rfl
  rw [e, e]
  refine C127_dirk33_uform _ H id dt semi old new C.hasEnergy (fun w hw => ⟨w, hw, rfl⟩) (fun x hx h0 => hdef x hx fun c => ?_)
    (C.linear old) hf (C.passive old) ho hdt h
  have h1 : (m.dx fun y => (x (.cell y)).v ^ 2) = 0 := by rw [e]; exact h0
  have y := (sum_eq_zero_iff_of_nonneg fun c _ => mul_nonneg (hw c).le (sq_nonneg _)).1 h1 c (mem_univ c)
  simpa using (mul_eq_zero.1 y).resolve_left (hw c).ne'

end Tracer

/-! ### Examples -/

/-- Inertial motion can be solved with any table and any time step. -/
theorem turn_steps (T : RK.Tableau) (dt : ℝ) (semi : Bool) (old : ℝ × ℝ) :
    ∃ new, TendencyStep (fun _ => turn) T dt semi ⊤ old new := by
  have h : ∀ n, ∃ k : ℕ → ℝ × ℝ, ∀ i < n, ∀ w : ℝ × ℝ, turn.inner (k i) w = turn.res (stageValue T dt old k i) old w := by
    intro n
    induction n with
    | zero => exact ⟨fun _ => 0, fun i hi => absurd hi (Nat.not_lt_zero i)⟩
    | succ n ih =>
      obtain ⟨k, hk⟩ := ih
      obtain ⟨s, hs⟩ : ∃ s, s = old + ∑ j ∈ range n, (T.a n j * dt) • k j := ⟨_, rfl⟩
      obtain ⟨c, hc⟩ : ∃ c, c = T.a n n * dt := ⟨_, rfl⟩
      obtain ⟨x, hx⟩ : ∃ x : ℝ × ℝ, x = ((s.2 - c * s.1) / (1 + c ^ 2), -(s.1 + c * s.2) / (1 + c ^ 2)) := ⟨_, rfl⟩
      refine ⟨Function.update k n x, fun i hi w => ?_⟩
      have hv : ∀ i < n, stageValue T dt old (Function.update k n x) i = stageValue T dt old k i := fun i hi => by
        unfold stageValue
        congr 1
        exact sum_congr rfl fun j hj => by rw [mem_range] at hj; rw [Function.update_of_ne (by omega)]
      rcases Nat.lt_succ_iff_lt_or_eq.1 hi with h | rfl
      · rw [hv i h, Function.update_of_ne (by omega)]
        exact hk i h w
      · have e : stageValue T dt old (Function.update k i x) i = s + c • x := by
          unfold stageValue
          rw [sum_range_succ, Function.update_self, hs, hc, add_assoc]
          congr 2
          exact sum_congr rfl fun j hj => by rw [mem_range] at hj; rw [Function.update_of_ne (by omega)]
        rw [e, Function.update_self]
        have hp : (1 + c ^ 2) ≠ 0 := by positivity
        simp only [turn, hx, Prod.fst_add, Prod.snd_add, Prod.smul_fst, Prod.smul_snd, smul_eq_mul]
        field_simp
        ring
  obtain ⟨k, hk⟩ := h T.n
  exact ⟨_, k, fun i hi => ⟨trivial, fun w _ => by
    have := hk i hi w
    change -turn.inner (k i) w + turn.res (stageValue T dt old k i) old w = 0
    linarith⟩, rfl⟩

/-- The hypotheses of `C127_dirk33_violated` hold. -/
example : ∃ new, TendencyStep (fun _ => turn) RK.dirk33 (1 / 10 ^ 5) false ⊤ (1, 0) new ∧
    turn.mass (1, 0) (1, 0) < turn.mass new new := by
  obtain ⟨new, h⟩ := turn_steps RK.dirk33 (1 / 10 ^ 5) false (1, 0)
  exact ⟨new, h, C127_dirk33_violated _ _ _ _ (by norm_num) le_rfl (by simp) h⟩

/-- The hypotheses of the other theorems hold, with equality of the two forms. -/
example (dt : ℝ) (hdt : 0 < dt) (old : ℝ × ℝ) : ∃ new, UStep (fun _ => turn) RK.dirk33 dt false ⊤ old new ∧
    turn.mass new new ≤ (1 + 1 / 10 ^ 10) * turn.mass old old := by
  obtain ⟨new, h⟩ := turn_steps RK.dirk33 dt false old
  have hn : RK.dirk33.n = 3 := rfl
  have hdef : ∀ x ∈ (⊤ : Submodule ℝ (ℝ × ℝ)), turn.mass x (id x) = 0 → x = 0 := fun x _ hx => by
    simp only [turn, id] at hx
    ext
    · change x.1 = 0
      nlinarith [mul_self_nonneg x.1, mul_self_nonneg x.2]
    · change x.2 = 0
      nlinarith [mul_self_nonneg x.1, mul_self_nonneg x.2]
  have hf : Fixed turn false := Or.inr fun _ _ _ _ => rfl
  have hu : UStep (fun _ => turn) RK.dirk33 dt false ⊤ old new :=
    (C127_forms RK.dirk33 dt false old new turn_hasEnergy hf (fun w _ => ⟨w, trivial, rfl⟩) hdef (by norm_num [hn])
      (fun j hj => by rw [hn] at hj ⊢; interval_cases j <;> rfl)
      (fun i hi => by rw [hn] at hi; interval_cases i <;> norm_num [RK.dirk33, RK.mk, RK.vec, RK.γ33]) trivial hdt.ne').2 h
  exact ⟨new, hu, C127_dirk33_uform turn ⊤ id dt false old new turn_hasEnergy (fun w _ => ⟨w, trivial, rfl⟩) hdef
    (turn_isLinear old) hf (fun x _ => by simp only [turn, id]; linarith [mul_comm x.1 x.2]) trivial hdt hu⟩

example (T : RK.Tableau) (hT : T = RK.dirk43 ∨ T = RK.dirkLSPUM2 ∨ T = RK.dirkLPUM2) (dt : ℝ) (hdt : 0 ≤ dt) (old : ℝ × ℝ) :
    ∃ new, TendencyStep (fun _ => turn) T dt false ⊤ old new ∧ turn.mass new new ≤ turn.mass old old := by
  obtain ⟨new, h⟩ := turn_steps T dt false old
  have hf : Fixed turn false := Or.inr fun _ _ _ _ => rfl
  have hp : Passive turn ⊤ id old := fun x _ => by simp only [turn, id]; linarith [mul_comm x.1 x.2]
  refine ⟨new, h, ?_⟩
  rcases hT with rfl | rfl | rfl
  · exact C127_dirk43 turn ⊤ id dt false old new turn_hasEnergy (turn_isLinear old) hf hp trivial hdt h
  · exact C127_dirkLSPUM2 turn ⊤ id dt false old new turn_hasEnergy (turn_isLinear old) hf hp trivial hdt h
  · exact C127_dirkLPUM2 turn ⊤ id dt false old new turn_hasEnergy (turn_isLinear old) hf hp trivial hdt h

end Verif.Contract
