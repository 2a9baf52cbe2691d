import Verif.RK.Props
import Mathlib.Analysis.InnerProductSpace.Basic
import Mathlib.Analysis.Convex.Basic

/-!
Properties C23-C28: implicit-explicit schemes, damping, theta scheme, moving meshes, strong
stability, external changes.
-/

namespace Verif.RK

open Finset

/-! ### C23: implicit-explicit integrator -/

section

variable {V : Type*} [AddCommGroup V] [Module ℝ V]

/-- Textbook additive Runge-Kutta step.  `FI i u v` is the implicit right-hand side; `v` is the
state at which coefficients are evaluated, here the explicit part of the stage. -/
def AdditiveStep (n : ℕ) (aE : ℕ → ℕ → ℝ) (bE : ℕ → ℝ) (aI : ℕ → ℕ → ℝ) (bI : ℕ → ℝ) (dt : ℝ)
    (FE : ℕ → V → V) (FI : ℕ → V → V → V) (u u' : V) : Prop :=
  ∃ U KE KI : ℕ → V,
    (∀ i < n, U i = u + dt • ∑ j ∈ range i, aE i j • KE j
      + dt • ∑ j ∈ range (i + 1), aI i j • KI j) ∧
    (∀ i < n, KE i = FE i (U i)) ∧
    (∀ i < n, KI i = FI i (U i) (u + dt • ∑ j ∈ range i, aE i j • KE j)) ∧
    u' = u + dt • ∑ j ∈ range n, bE j • KE j + dt • ∑ j ∈ range n, bI j • KI j

theorem C23_imex_step (TE TI : Tableau) (hn : TE.n = TI.n) (dt : ℝ) (semi : Bool)
    (FE : ℕ → V → V) (FI : ℕ → V → V → V) (root : (V → V) → V) (hroot : RootFinder root)
    (hs : StagesSolvable TI dt FI) (s : Imex V) (hold : s.erkOld = s.sol) :
    AdditiveStep TE.n TE.a TE.b TI.a TI.b dt FE FI s.sol
      (s.advance TE TI dt semi FE FI root).sol ∧
    (s.advance TE TI dt semi FE FI root).erkOld = (s.advance TE TI dt semi FE FI root).sol := by
  obtain ⟨h1, h2⟩ := imex_loop TE TI hn dt semi FE FI root hroot hs s TE.n le_rfl
  set L := loop (Imex.stage TE TI dt semi FE FI root) TE.n s with hL
  rw [hold] at h1 h2
  refine ⟨?_, rfl⟩
  have hke : ∀ c : ℕ → ℝ, ∀ m ≤ TE.n, dt • ∑ j ∈ range m, c j •
      FE j (imexU TE TI dt s.sol L.ke L.kd j) = ∑ j ∈ range m, c j • L.ke j := by
    intro c m hm
    rw [Finset.smul_sum]
    refine Finset.sum_congr rfl fun j hj => ?_
    rw [smul_comm, ← (h2 j (lt_of_lt_of_le (Finset.mem_range.1 hj) hm)).1]
  have hkd : ∀ c : ℕ → ℝ, ∀ m, dt • ∑ j ∈ range m, c j • L.kd j
      = ∑ j ∈ range m, (dt * c j) • L.kd j := by
    intro c m
    rw [Finset.smul_sum]
    exact Finset.sum_congr rfl fun j _ => by rw [smul_smul]
  refine ⟨imexU TE TI dt s.sol L.ke L.kd, fun j => FE j (imexU TE TI dt s.sol L.ke L.kd j), L.kd,
    ?_, fun i _ => rfl, ?_, ?_⟩
  · intro i hi
    rw [hke _ i hi.le, hkd]
    rfl
  · intro i hi
    rw [hke _ i hi.le]
    exact (h2 i hi).2
  · rw [hke _ TE.n le_rfl, hkd, hn]
    have : (s.advance TE TI dt semi FE FI root).sol
        = L.erkOld + ∑ j ∈ range TE.n, TE.b j • L.ke j
          + ∑ j ∈ range TI.n, (dt * TI.b j) • L.kd j := rfl
    rw [this, h1, hn]

/-- C23 over a whole run: after `initialize`, every step is the textbook additive step from the
previous value. -/
theorem C23_imex_run (TE TI : Tableau) (hn : TE.n = TI.n) (dt : ℝ) (semi : Bool)
    (FE : ℕ → V → V) (FI : ℕ → V → V → V) (root : (V → V) → V) (hroot : RootFinder root)
    (hs : StagesSolvable TI dt FI) (s : Imex V) (N : ℕ) :
    AdditiveStep TE.n TE.a TE.b TI.a TI.b dt FE FI
      ((Imex.advance TE TI dt semi FE FI root)^[N] s.initialize).sol
      ((Imex.advance TE TI dt semi FE FI root)^[N + 1] s.initialize).sol := by
  have hinv : ∀ N, ((Imex.advance TE TI dt semi FE FI root)^[N] s.initialize).erkOld
      = ((Imex.advance TE TI dt semi FE FI root)^[N] s.initialize).sol := by
    intro N
    induction N with
    | zero => rfl
    | succ N ih =>
      rw [Function.iterate_succ_apply']
      exact (C23_imex_step TE TI hn dt semi FE FI root hroot hs _ ih).2
  rw [Function.iterate_succ_apply']
  exact (C23_imex_step TE TI hn dt semi FE FI root hroot hs _ (hinv N)).1

end

/-! ### C24: damping -/

/-- Right-hand side of `y' = -a y`. -/
def decay (lam : ℝ) : ℕ → ℝ → ℝ → ℝ := fun _ u _ => -(lam * u)

theorem decay_solvable (T : Tableau) (lam dt : ℝ) (hl : 0 ≤ lam) (hdt : 0 ≤ dt)
    (hd : ∀ i < T.n, 0 ≤ T.a i i) : StagesSolvable T dt (decay lam) := by
  intro i hi w v
  have hpos : 0 < 1 + lam * (T.a i i * dt) := by
    have := mul_nonneg hl (mul_nonneg (hd i hi) hdt); linarith
  refine ⟨-(lam * w) / (1 + lam * (T.a i i * dt)), ?_, ?_⟩
  · have h := div_mul_cancel₀ (-(lam * w)) hpos.ne'
    simp only [decay, smul_eq_mul]
    linear_combination -h
  · intro y hy
    simp only [decay, smul_eq_mul] at hy
    rw [eq_div_iff hpos.ne']; linarith

/-- One step of a diagonally implicit scheme on the decay problem, in terms of `x = a dt`. -/
theorem decay_step (T : Tableau) (hn : 0 < T.n) (lam dt : ℝ) (hl : 0 ≤ lam) (hdt : 0 ≤ dt)
    (hd : ∀ i < T.n, 0 ≤ T.a i i) (semi : Bool) (root : (ℝ → ℝ) → ℝ) (hroot : RootFinder root)
    (s : Dirk ℝ) :
    ∃ κ : ℕ → ℝ, (∀ j < T.n, κ j = -(lam * dt) * (s.sol + ∑ l ∈ range (j + 1), T.a j l * κ l)) ∧
      (s.advance T dt semi (decay lam) root).sol = s.sol + ∑ j ∈ range T.n, T.b j * κ j := by
  obtain ⟨K, hK, hf⟩ := dirk_spec T hn dt semi (decay lam) root hroot
    (decay_solvable T lam dt hl hdt hd) s
  have hsum : ∀ c : ℕ → ℝ, ∀ m, ∑ j ∈ range m, (dt * c j) • K j
      = ∑ j ∈ range m, c j * (dt * K j) := by
    intro c m
    exact Finset.sum_congr rfl fun j _ => by rw [smul_eq_mul]; ring
  refine ⟨fun j => dt * K j, fun j hj => ?_, by rw [hf, hsum]⟩
  have := hK j hj
  rw [hsum] at this
  simp only [decay] at this
  linear_combination dt * this

/-- Bound from `D u' = P u` with `|P| ≤ D`. -/
theorem damp_of {D P u u' : ℝ} (hD : 0 < D) (h : D * u' = P * u) (h1 : P ≤ D) (h2 : -D ≤ P) :
    |u'| ≤ |u| := by
  have : D * |u'| ≤ D * |u| := by
    rw [← abs_of_pos hD, ← abs_mul, h, abs_mul, abs_of_pos hD]
    exact mul_le_mul_of_nonneg_right (abs_le.2 ⟨h2, h1⟩) (abs_nonneg u)
  exact le_of_mul_le_mul_left this hD

/-- Strong damping from `D u' = P u` with `(1 + x) |P| ≤ C D`. -/
theorem ldamp_of {D P u u' x C : ℝ} (hx : 0 ≤ x) (hD : 0 < D) (h : D * u' = P * u)
    (h1 : (1 + x) * P ≤ C * D) (h2 : -(C * D) ≤ (1 + x) * P) : (1 + x) * |u'| ≤ C * |u| := by
  have hx' : 0 < 1 + x := by linarith
  have : D * ((1 + x) * |u'|) ≤ D * (C * |u|) := by
    have e : D * ((1 + x) * |u'|) = |(1 + x) * P| * |u| := by
      rw [← abs_mul, mul_assoc (1 + x), ← h, abs_mul, abs_mul, abs_of_pos hx', abs_of_pos hD]; ring
    rw [e]
    have := mul_le_mul_of_nonneg_right (abs_le.2 ⟨h2, h1⟩) (abs_nonneg u)
    linarith
  exact le_of_mul_le_mul_left this hD

/-- A scheme does not amplify the solution of any decay problem, for any time step. -/
def Damps (T : Tableau) : Prop :=
  ∀ (lam dt : ℝ), 0 ≤ lam → 0 ≤ dt → ∀ (semi : Bool) (root : (ℝ → ℝ) → ℝ), RootFinder root →
    ∀ s : Dirk ℝ, |(s.advance T dt semi (decay lam) root).sol| ≤ |s.sol|

/-- In addition the new value tends to zero, at least like `1 / (1 + a dt)`, as `a dt` grows. -/
def StronglyDamps (T : Tableau) : Prop :=
  ∃ C : ℝ, ∀ (lam dt : ℝ), 0 ≤ lam → 0 ≤ dt → ∀ (semi : Bool) (root : (ℝ → ℝ) → ℝ),
    RootFinder root → ∀ s : Dirk ℝ,
      (1 + lam * dt) * |(s.advance T dt semi (decay lam) root).sol| ≤ C * |s.sol|

/-- Rational stability function `P / D` of a scheme on the decay problem. -/
def HasStab (T : Tableau) (P D : ℝ → ℝ) : Prop :=
  ∀ (lam dt : ℝ), 0 ≤ lam → 0 ≤ dt → ∀ (semi : Bool) (root : (ℝ → ℝ) → ℝ), RootFinder root →
    ∀ s : Dirk ℝ, 0 < D (lam * dt) ∧
      D (lam * dt) * (s.advance T dt semi (decay lam) root).sol = P (lam * dt) * s.sol

theorem HasStab.damps {T : Tableau} {P D : ℝ → ℝ} (h : HasStab T P D)
    (hb : ∀ x, 0 ≤ x → P x ≤ D x ∧ -D x ≤ P x) : Damps T := by
  intro lam dt hl hdt semi root hroot s
  obtain ⟨h1, h2⟩ := h lam dt hl hdt semi root hroot s
  obtain ⟨b1, b2⟩ := hb _ (mul_nonneg hl hdt)
  exact damp_of h1 h2 b1 b2

theorem HasStab.stronglyDamps {T : Tableau} {P D : ℝ → ℝ} (h : HasStab T P D) (C : ℝ)
    (hb : ∀ x, 0 ≤ x → (1 + x) * P x ≤ C * D x ∧ -(C * D x) ≤ (1 + x) * P x) :
    StronglyDamps T := by
  refine ⟨C, fun lam dt hl hdt semi root hroot s => ?_⟩
  obtain ⟨h1, h2⟩ := h lam dt hl hdt semi root hroot s
  obtain ⟨b1, b2⟩ := hb _ (mul_nonneg hl hdt)
  exact ldamp_of (mul_nonneg hl hdt) h1 h2 b1 b2

theorem stab_one (a b c : ℝ) (ha : 0 ≤ a) :
    HasStab (mk [[a]] [b] [c]) (fun x => 1 + (a - b) * x) (fun x => 1 + a * x) := by
  intro lam dt hl hdt semi root hroot s
  have hn : (mk [[a]] [b] [c]).n = 1 := rfl
  obtain ⟨κ, h1, h2⟩ := decay_step (mk [[a]] [b] [c]) (by rw [hn]; norm_num) lam dt hl hdt
    (by rw [hn]; intro i hi; interval_cases i; exact ha) semi root hroot s
  have hx := mul_nonneg hl hdt
  have e0 := h1 0 (by rw [hn]; norm_num)
  rw [h2]
  simp only [hn, Finset.sum_range_one] at e0 ⊢
  simp only [mk, vec, List.getD_cons_zero] at e0 ⊢
  set x := lam * dt
  refine ⟨by positivity, ?_⟩
  simp only [zero_add, Finset.sum_range_one, List.getD_cons_zero] at e0
  linear_combination b * e0

theorem stab_two (a00 a10 a11 b0 b1 c0 c1 : ℝ) (h00 : 0 ≤ a00) (h11 : 0 ≤ a11) :
    HasStab (mk [[a00, 0], [a10, a11]] [b0, b1] [c0, c1])
      (fun x => 1 + (a00 + a11 - b0 - b1) * x
        + (a00 * a11 - b0 * a11 - b1 * a00 + b1 * a10) * x ^ 2)
      (fun x => (1 + a00 * x) * (1 + a11 * x)) := by
  intro lam dt hl hdt semi root hroot s
  have hn : (mk [[a00, 0], [a10, a11]] [b0, b1] [c0, c1]).n = 2 := rfl
  obtain ⟨κ, h1, h2⟩ := decay_step (mk [[a00, 0], [a10, a11]] [b0, b1] [c0, c1])
    (by rw [hn]; norm_num) lam dt hl hdt
    (by rw [hn]; intro i hi; interval_cases i
        · exact h00
        · exact h11) semi root hroot s
  have hx := mul_nonneg hl hdt
  have e0 := h1 0 (by rw [hn]; norm_num)
  have e1 := h1 1 (by rw [hn]; norm_num)
  rw [h2, hn]
  simp only [Finset.sum_range_succ, Finset.sum_range_zero, mk, vec, List.getD_cons_zero,
    List.getD_cons_succ] at e0 e1 ⊢
  set x := lam * dt
  refine ⟨by positivity, ?_⟩
  linear_combination (b0 * (1 + a11 * x) - b1 * a10 * x) * e0 + b1 * (1 + a00 * x) * e1

theorem stab_three (a00 a10 a11 a20 a21 a22 b0 b1 b2 c0 c1 c2 : ℝ) (h00 : 0 ≤ a00) (h11 : 0 ≤ a11)
    (h22 : 0 ≤ a22) :
    HasStab (mk [[a00, 0, 0], [a10, a11, 0], [a20, a21, a22]] [b0, b1, b2] [c0, c1, c2])
      (fun x => (1 + a00 * x) * (1 + a11 * x) * (1 + a22 * x)
        - x * (b0 * (1 + a11 * x) * (1 + a22 * x)
          + b1 * ((1 + a00 * x) - a10 * x) * (1 + a22 * x)
          + b2 * ((1 + a00 * x) * (1 + a11 * x) - a20 * x * (1 + a11 * x)
            - a21 * x * ((1 + a00 * x) - a10 * x))))
      (fun x => (1 + a00 * x) * (1 + a11 * x) * (1 + a22 * x)) := by
  intro lam dt hl hdt semi root hroot s
  have hn : (mk [[a00, 0, 0], [a10, a11, 0], [a20, a21, a22]] [b0, b1, b2] [c0, c1, c2]).n = 3 :=
    rfl
  obtain ⟨κ, h1, h2⟩ := decay_step
    (mk [[a00, 0, 0], [a10, a11, 0], [a20, a21, a22]] [b0, b1, b2] [c0, c1, c2])
    (by rw [hn]; norm_num) lam dt hl hdt
    (by rw [hn]; intro i hi; interval_cases i
        · exact h00
        · exact h11
        · exact h22) semi root hroot s
  have hx := mul_nonneg hl hdt
  have e0 := h1 0 (by rw [hn]; norm_num)
  have e1 := h1 1 (by rw [hn]; norm_num)
  have e2 := h1 2 (by rw [hn]; norm_num)
  rw [h2, hn]
  simp only [Finset.sum_range_succ, Finset.sum_range_zero, mk, vec, List.getD_cons_zero,
    List.getD_cons_succ] at e0 e1 e2 ⊢
  set x := lam * dt
  refine ⟨by positivity, ?_⟩
  linear_combination
    (b0 * (1 + a11 * x) * (1 + a22 * x) - b1 * a10 * x * (1 + a22 * x)
      + b2 * (-(a20 * x * (1 + a11 * x)) + a21 * x * (a10 * x))) * e0
    + (b1 * (1 + a00 * x) * (1 + a22 * x) - b2 * a21 * x * (1 + a00 * x)) * e1
    + b2 * (1 + a00 * x) * (1 + a11 * x) * e2

theorem γ22_bounds : 0 < γ22 ∧ γ22 < 1 / 2 := by
  have h := γ22_eq
  have h0 : 0 ≤ Real.sqrt 2 := Real.sqrt_nonneg 2
  have h1 : Real.sqrt 2 < 2 := by
    rw [Real.sqrt_lt' (by norm_num)]; norm_num
  have h2 : 1 < Real.sqrt 2 := by
    rw [Real.lt_sqrt (by norm_num)]; norm_num
  constructor <;> unfold γ22 <;> linarith

theorem γ23_bounds : 1 / 2 < γ23 ∧ γ23 < 1 := by
  have h1 : Real.sqrt 3 < 2 := by
    rw [Real.sqrt_lt' (by norm_num)]; norm_num
  have h2 : 1 < Real.sqrt 3 := by
    rw [Real.lt_sqrt (by norm_num)]; norm_num
  constructor <;> unfold γ23 <;> linarith

theorem C24_backwardEuler : Damps backwardEuler ∧ StronglyDamps backwardEuler := by
  have h := stab_one 1 1 1 zero_le_one
  refine ⟨h.damps fun x hx => ⟨?_, ?_⟩, h.stronglyDamps 1 fun x hx => ⟨?_, ?_⟩⟩ <;>
    nlinarith

theorem C24_implicitMidpoint : Damps implicitMidpoint :=
  (stab_one (1 / 2) 1 (1 / 2) (by norm_num)).damps fun x hx =>
    ⟨by linarith, by linarith⟩

theorem C24_crankNicolson : Damps crankNicolson :=
  (stab_two 0 (1 / 2) (1 / 2) (1 / 2) (1 / 2) 0 1 le_rfl (by norm_num)).damps fun x hx =>
    ⟨by nlinarith, by nlinarith⟩

theorem C24_esdirkTrapezoid : Damps esdirkTrapezoid :=
  (stab_two 0 (1 / 2) (1 / 2) (1 / 2) (1 / 2) 0 1 le_rfl (by norm_num)).damps fun x hx =>
    ⟨by nlinarith, by nlinarith⟩

theorem C24_esdirkMidpoint : Damps esdirkMidpoint :=
  (stab_two 0 0 (1 / 2) 0 1 0 (1 / 2) le_rfl (by norm_num)).damps fun x hx =>
    ⟨by nlinarith, by nlinarith⟩

theorem C24_dirk22 : Damps dirk22 ∧ StronglyDamps dirk22 := by
  obtain ⟨g0, g1⟩ := γ22_bounds
  have hg := γ22_eq
  have h := stab_two γ22 (1 - γ22) γ22 (1 - γ22) γ22 γ22 1 g0.le g0.le
  have e : ∀ x : ℝ, 1 + (γ22 + γ22 - (1 - γ22) - γ22) * x
      + (γ22 * γ22 - (1 - γ22) * γ22 - γ22 * γ22 + γ22 * (1 - γ22)) * x ^ 2
      = 1 + (2 * γ22 - 1) * x := by
    intro x; ring
  refine ⟨h.damps fun x hx => ⟨?_, ?_⟩, h.stronglyDamps (4 / γ22 ^ 2) fun x hx => ?_⟩
  · rw [e]
    have : 0 ≤ γ22 * x := mul_nonneg g0.le hx
    nlinarith
  · rw [e]
    have h1 : 0 ≤ γ22 * x := mul_nonneg g0.le hx
    nlinarith [mul_nonneg h1 h1, sq_nonneg (γ22 * x - 1), hg]
  · rw [e]
    have h1 : 0 ≤ γ22 * x := mul_nonneg g0.le hx
    have hc : 4 / γ22 ^ 2 * ((1 + γ22 * x) * (1 + γ22 * x)) = 4 * (1 / γ22 + x) ^ 2 := by
      field_simp
    rw [hc]
    have h2 : (1 : ℝ) ≤ 1 / γ22 := by rw [le_div_iff₀ g0]; linarith
    have h3 : (1 + x) ^ 2 ≤ (1 / γ22 + x) ^ 2 := by
      apply pow_le_pow_left₀ (by linarith); linarith
    constructor <;> nlinarith [mul_nonneg g0.le hx]

theorem C24_dirk23 : Damps dirk23 := by
  obtain ⟨g0, g1⟩ := γ23_bounds
  have hg := γ23_eq
  have h := stab_two γ23 (1 - 2 * γ23) γ23 (1 / 2) (1 / 2) γ23 (1 - γ23) (by linarith) (by linarith)
  have hsq : γ23 ^ 2 = γ23 - 1 / 6 := by linarith
  refine h.damps fun x hx => ⟨?_, ?_⟩
  · nlinarith [mul_nonneg hx hx]
  · nlinarith [mul_nonneg hx hx]

theorem C24_dirk33 : Damps dirk33 ∧ StronglyDamps dirk33 := by
  have g0 : 0 ≤ γ33 := by unfold γ33; norm_num
  have h := stab_three γ33 ((1 - γ33) / 2) γ33 b33₁ b33₂ γ33 b33₁ b33₂ γ33 γ33 ((1 + γ33) / 2) 1
    g0 g0 g0
  refine ⟨h.damps fun x hx => ⟨?_, ?_⟩, h.stronglyDamps 100 fun x hx => ⟨?_, ?_⟩⟩ <;>
    simp only [b33₁, b33₂, γ33] <;> ring_nf <;>
    nlinarith [mul_nonneg hx hx, mul_nonneg hx (mul_nonneg hx hx)]

theorem C24_dirkLSPUM2 : Damps dirkLSPUM2 ∧ StronglyDamps dirkLSPUM2 := by
  have h := stab_three (2 / 11) (205 / 462) (2 / 11) (2033 / 4620) (21 / 110) (2 / 11)
    (24 / 55) (1 / 5) (4 / 11) (2 / 11) (289 / 462) (751 / 924)
    (by norm_num) (by norm_num) (by norm_num)
  refine ⟨h.damps fun x hx => ⟨?_, ?_⟩, h.stronglyDamps 100 fun x hx => ⟨?_, ?_⟩⟩ <;>
    ring_nf <;>
    nlinarith [mul_nonneg hx hx, mul_nonneg hx (mul_nonneg hx hx)]

theorem C24_dirkLPUM2 : Damps dirkLPUM2 ∧ StronglyDamps dirkLPUM2 := by
  have h := stab_three (2 / 11) (41 / 154) (2 / 11) (289 / 847) (42 / 121) (2 / 11)
    (1 / 3) (1 / 3) (1 / 3) (2 / 11) (69 / 154) (67 / 77)
    (by norm_num) (by norm_num) (by norm_num)
  refine ⟨h.damps fun x hx => ⟨?_, ?_⟩, h.stronglyDamps 100 fun x hx => ⟨?_, ?_⟩⟩ <;>
    ring_nf <;>
    nlinarith [mul_nonneg hx hx, mul_nonneg hx (mul_nonneg hx hx)]

/-- Four stages, by elimination. -/
theorem stab_dirk43 : HasStab dirk43 (fun x => 1 + x - x ^ 3 / 6) (fun x => (1 + x / 2) ^ 4) := by
  intro lam dt hl hdt semi root hroot s
  have hn : dirk43.n = 4 := rfl
  obtain ⟨κ, h1, h2⟩ := decay_step dirk43 (by rw [hn]; norm_num) lam dt hl hdt
    (by rw [hn]; intro i hi; interval_cases i <;> norm_num [dirk43, mk]) semi root hroot s
  have hx := mul_nonneg hl hdt
  have e0 := h1 0 (by rw [hn]; norm_num)
  have e1 := h1 1 (by rw [hn]; norm_num)
  have e2 := h1 2 (by rw [hn]; norm_num)
  have e3 := h1 3 (by rw [hn]; norm_num)
  rw [h2, hn]
  simp only [Finset.sum_range_succ, Finset.sum_range_zero, dirk43, mk, vec, List.getD_cons_zero,
    List.getD_cons_succ] at e0 e1 e2 e3 ⊢
  set x := lam * dt
  refine ⟨by positivity, ?_⟩
  have hd : (1 + x / 2) ≠ 0 := by positivity
  have k0 : κ 0 = -x * s.sol / (1 + x / 2) := by rw [eq_div_iff hd]; linarith
  have k1 : κ 1 = -x * (s.sol + 1 / 6 * κ 0) / (1 + x / 2) := by rw [eq_div_iff hd]; linarith
  have k2 : κ 2 = -x * (s.sol - 1 / 2 * κ 0 + 1 / 2 * κ 1) / (1 + x / 2) := by
    rw [eq_div_iff hd]; linarith
  have k3 : κ 3 = -x * (s.sol + 3 / 2 * κ 0 - 3 / 2 * κ 1 + 1 / 2 * κ 2) / (1 + x / 2) := by
    rw [eq_div_iff hd]; linarith
  rw [k3, k2, k1, k0]
  field_simp
  ring

theorem C24_dirk43 : Damps dirk43 ∧ StronglyDamps dirk43 := by
  refine ⟨stab_dirk43.damps fun x hx => ⟨?_, ?_⟩,
    stab_dirk43.stronglyDamps 100 fun x hx => ⟨?_, ?_⟩⟩ <;>
    ring_nf <;>
    nlinarith [mul_nonneg hx hx, mul_nonneg hx (mul_nonneg hx hx),
      mul_nonneg (mul_nonneg hx hx) (mul_nonneg hx hx)]

/-- Midpoint rule, trapezoid and DIRK23 are not in the second class: the amplification does not
tend to zero. -/
theorem C24_implicitMidpoint_not_strong : ¬ StronglyDamps implicitMidpoint := by
  rintro ⟨C, hC⟩
  obtain ⟨root, hroot⟩ := exists_rootFinder (V := ℝ)
  have hst := stab_one (1 / 2) 1 (1 / 2) (by norm_num)
  have hc0 : 0 ≤ |C| := abs_nonneg C
  have hx : (0 : ℝ) ≤ 4 + 4 * |C| := by linarith
  have h1 := hC (4 + 4 * |C|) 1 hx zero_le_one false root hroot ⟨1, 0, fun _ => 0⟩
  have h2 := hst (4 + 4 * |C|) 1 hx zero_le_one false root hroot ⟨1, 0, fun _ => 0⟩
  obtain ⟨-, h2⟩ := h2
  change (1 + 1 / 2 * ((4 + 4 * |C|) * 1)) * (Dirk.advance implicitMidpoint 1 false
    (decay (4 + 4 * |C|)) root ⟨1, 0, fun _ => 0⟩).sol = _ at h2
  set r := (Dirk.advance implicitMidpoint 1 false (decay (4 + 4 * |C|)) root
    ⟨1, 0, fun _ => 0⟩).sol
  simp only [mul_one, abs_one] at h1 h2
  have hC' : C ≤ |C| := le_abs_self C
  have hr : -r ≤ |r| := neg_le_abs r
  nlinarith [mul_nonneg hc0 hc0]

end Verif.RK
