import Verif.RK.Props3
import Mathlib.Analysis.Convex.Combination

/-!
Properties C26-C28: moving meshes, strong stability, external changes.
-/

namespace Verif.RK

open Finset

section

variable {V W : Type*} [AddCommGroup W] [Module ℝ W]

/-! ### C26: moving meshes -/

/-- One two-stage step: the total after the step is the total before it plus the mean of the two
right-hand side totals, whatever the meshes are. -/
theorem C26_ale_budget (total : W →ₗ[ℝ] ℝ) (dt : ℝ) (M₀ M₂ L₀ L₁ : V → W) (Minv₁ Minv₂ : W → V)
    (h₂ : ∀ w, M₂ (Minv₂ w) = w) (s : Ale V W) :
    total (M₂ (s.advance dt M₀ L₀ L₁ Minv₁ Minv₂).sol)
      = total (M₀ s.sol) + dt / 2 * (total (L₀ s.sol)
        + total (L₁ (Minv₁ (M₀ s.sol + dt • L₀ s.sol)))) := by
  simp only [Ale.advance, Ale.solve, Ale.prep2, Ale.prep1, h₂, map_add, map_smul, smul_eq_mul]
  ring

/-- A mesh motion over many steps: step `n` starts on a mesh with mass operator `M n`, ends on a
mesh with mass operator `M (n + 1)`. -/
noncomputable def aleRun (dt : ℝ) (M : ℕ → V → W) (L₀ L₁ : ℕ → V → W) (Minv₁ Minv₂ : ℕ → W → V) :
    ℕ → Ale V W → Ale V W
  | 0, s => s
  | n + 1, s => (aleRun dt M L₀ L₁ Minv₁ Minv₂ n s).advance dt (M n) (L₀ n) (L₁ n) (Minv₁ n)
      (Minv₂ n)

/-- Over any number of steps with zero-total right-hand sides, mass is kept. -/
theorem C26_ale_mass (total : W →ₗ[ℝ] ℝ) (dt : ℝ) (M L₀ L₁ : ℕ → V → W) (Minv₁ Minv₂ : ℕ → W → V)
    (h₂ : ∀ n w, M (n + 1) (Minv₂ n w) = w) (hL₀ : ∀ n u, total (L₀ n u) = 0)
    (hL₁ : ∀ n u, total (L₁ n u) = 0) (s : Ale V W) (n : ℕ) :
    total (M n (aleRun dt M L₀ L₁ Minv₁ Minv₂ n s).sol) = total (M 0 s.sol) := by
  induction n with
  | zero => rfl
  | succ n ih =>
    rw [aleRun, C26_ale_budget total dt (M n) (M (n + 1)) _ _ _ _ (h₂ n), hL₀, hL₁, ih]
    ring

/-- Constants are kept over any number of steps when each stage satisfies the geometric
conservation law: the right-hand side of the constant accounts for the change of volume. -/
theorem C26_ale_constant (dt : ℝ) (M Mmid L₀ L₁ : ℕ → V → W) (Minv₁ Minv₂ : ℕ → W → V) (c : V)
    (h₁ : ∀ n, Minv₁ n (Mmid n c) = c) (h₂ : ∀ n, Minv₂ n (M (n + 1) c) = c)
    (hg₀ : ∀ n, dt • L₀ n c = Mmid n c - M n c)
    (hg₁ : ∀ n, dt • L₁ n c = (2 : ℝ) • M (n + 1) c - Mmid n c - M n c)
    (s : Ale V W) (hs : s.sol = c) (n : ℕ) :
    (aleRun dt M L₀ L₁ Minv₁ Minv₂ n s).sol = c := by
  induction n with
  | zero => exact hs
  | succ n ih =>
    rw [aleRun]
    set t := aleRun dt M L₀ L₁ Minv₁ Minv₂ n s
    simp only [Ale.advance, Ale.solve, Ale.prep2, Ale.prep1, ih, hg₀]
    rw [show M n c + (Mmid n c - M n c) = Mmid n c by abel, h₁, hg₁]
    rw [show (1 / 2 : ℝ) • Mmid n c + (1 / 2 : ℝ) • M n c
        + (1 / 2 : ℝ) • ((2 : ℝ) • M (n + 1) c - Mmid n c - M n c) = M (n + 1) c by
      rw [smul_sub, smul_sub, smul_smul]; norm_num, h₂]

/-- A mesh of one cell that grows: volumes 1, 2, 3, constant tracer 5; the conservation law
hypotheses are met. -/
example : (aleRun (1 : ℝ) (fun n (u : ℝ) => (n + 1 : ℝ) * u) (fun _ u => 1 / 2 * u)
    (fun _ u => 3 / 2 * u) (fun n w => w / (n + 3 / 2)) (fun n w => w / (n + 2)) 2 ⟨5, 0, 0⟩).sol = 5 := by
  refine C26_ale_constant 1 _ (fun n u => (n + 3 / 2 : ℝ) * u) _ _ _ _ 5 ?_ ?_ ?_ ?_ _ rfl 2
  · intro n
    have : (n + 3 / 2 : ℝ) ≠ 0 := by positivity
    field_simp
  · intro n
    have : (n + 2 : ℝ) ≠ 0 := by positivity
    push_cast
    field_simp; ring
  · intro n; simp only [smul_eq_mul]; ring
  · intro n; simp only [smul_eq_mul]; push_cast; ring

/-- A run of leap-frog steps over meshes `M 0, M 1, …`. -/
noncomputable def leapRun (dt : ℝ) (M L Lhalf : ℕ → V → W) (Minv : ℕ → W → V) :
    ℕ → Leap V W → Leap V W
  | 0, s => s
  | n + 1, s => (leapRun dt M L Lhalf Minv n s).advance dt (M n) (L n) (Lhalf n) (Minv (n + 1))

/-- Budget of one leap-frog step. -/
theorem C26_leap_budget (total : W →ₗ[ℝ] ℝ) (dt : ℝ) (M M' L Lhalf : V → W) (Minv' : W → V)
    (h' : ∀ w, M' (Minv' w) = w) (s : Leap V W) :
    total (M' (s.advance dt M L Lhalf Minv').sol)
      = total (M s.sol) + dt * total (Lhalf (s.predict dt M L).sol) := by
  simp only [Leap.advance, Leap.correct, Leap.evalRhs, h', map_add, map_smul, smul_eq_mul]
  simp only [Leap.predict]
  ring

theorem C26_leap_mass (total : W →ₗ[ℝ] ℝ) (dt : ℝ) (M L Lhalf : ℕ → V → W) (Minv : ℕ → W → V)
    (hM : ∀ n w, M n (Minv n w) = w) (hL : ∀ n u, total (Lhalf n u) = 0) (s : Leap V W) (n : ℕ) :
    total (M n (leapRun dt M L Lhalf Minv n s).sol) = total (M 0 s.sol) := by
  induction n with
  | zero => rfl
  | succ n ih =>
    rw [leapRun, C26_leap_budget total dt (M n) (M (n + 1)) _ _ _ (hM (n + 1)), hL, ih]
    ring

/-- Constants, started from `initialize`.  In the prediction the mesh does not move, so a constant
has zero right-hand side; in the correction it accounts for the change of volume. -/
theorem C26_leap_constant (dt : ℝ) (M L Lhalf : ℕ → V → W) (Minv : ℕ → W → V) (c : V) (r : W)
    (hM : ∀ n, Minv n (M n c) = c) (hL : ∀ n, L n c = 0)
    (hg : ∀ n, dt • Lhalf n c = M (n + 1) c - M n c) (n : ℕ) :
    (leapRun dt M L Lhalf Minv n (Leap.initialize (M 0) (Minv 0) c r)).sol = c ∧
    (leapRun dt M L Lhalf Minv n (Leap.initialize (M 0) (Minv 0) c r)).old = c := by
  suffices h : ∀ n, (leapRun dt M L Lhalf Minv n (Leap.initialize (M 0) (Minv 0) c r)).sol = c ∧
      (leapRun dt M L Lhalf Minv n (Leap.initialize (M 0) (Minv 0) c r)).old = c ∧
      (leapRun dt M L Lhalf Minv n (Leap.initialize (M 0) (Minv 0) c r)).minv = Minv n from
    ⟨(h n).1, (h n).2.1⟩
  intro n
  induction n with
  | zero => exact ⟨rfl, rfl, rfl⟩
  | succ n ih =>
    rw [leapRun]
    set t := leapRun dt M L Lhalf Minv n (Leap.initialize (M 0) (Minv 0) c r)
    obtain ⟨h1, h2, h3⟩ := ih
    have hp : (t.predict dt (M n) (L n)).sol = c := by
      simp only [Leap.predict, h1, h2, h3, hL, smul_zero, add_zero]
      rw [← add_smul]
      norm_num [hM]
    refine ⟨?_, ?_, rfl⟩
    · simp only [Leap.advance, Leap.correct, Leap.evalRhs, hp, hg]
      simp only [Leap.predict, h1]
      rw [sub_add_cancel, hM]
    · simp only [Leap.advance, Leap.correct, Leap.evalRhs, Leap.predict, h1]

/-- Without the geometric conservation law a constant is not kept: the mesh grows from volume 1 to
2 with a zero right-hand side. -/
example : (leapRun (1 : ℝ) (fun n (u : ℝ) => (n + 1 : ℝ) * u) (fun _ _ => 0) (fun _ _ => 0)
    (fun n w => w / (n + 1)) 1 (Leap.initialize (fun u => u) (fun w => w) 5 0)).sol = 5 / 2 := by
  norm_num [leapRun, Leap.advance, Leap.correct, Leap.evalRhs, Leap.predict, Leap.initialize]

example : (leapRun (1 : ℝ) (fun n (u : ℝ) => (n + 1 : ℝ) * u) (fun _ _ => 0) (fun _ u => u)
    (fun n w => w / (n + 1)) 7 (Leap.initialize (fun u => ((0 : ℕ) + 1 : ℝ) * u)
      (fun w => w / ((0 : ℕ) + 1)) 5 0)).sol = 5 :=
  (C26_leap_constant 1 (fun n (u : ℝ) => (n + 1 : ℝ) * u) _ _ (fun n w => w / (n + 1)) 5 0
    (fun n => by
      have : (n + 1 : ℝ) ≠ 0 := by positivity
      field_simp) (fun _ => rfl)
    (fun n => by simp only [smul_eq_mul]; push_cast; ring) 7).1

end

section

variable {V : Type*} [AddCommGroup V] [Module ℝ V]

/-! ### C27: strong stability -/

/-- Coefficients giving a strong stability preserving scheme with coefficient `c`: each stage is a
convex combination of earlier stages, and the tendency weight is at most `1/c` of the weight of
the latest stage. -/
structure Ssp (n : ℕ) (C : ShuOsher) (c : ℝ) : Prop where
  nonneg : ∀ i < n, ∀ j ≤ i, 0 ≤ C.α (i + 1) j
  rowSum : ∀ i < n, ∑ j ∈ range (i + 1), C.α (i + 1) j = 1
  betaPos : ∀ i < n, 0 ≤ C.β (i + 1) i
  beta : ∀ i < n, c * C.β (i + 1) i ≤ C.α (i + 1) i

/-- One stage of a strong stability preserving scheme stays in the convex set. -/
theorem ssp_stage {S : Set V} (hS : Convex ℝ S) {n : ℕ} {C : ShuOsher} {c : ℝ} (hC : Ssp n C c)
    {i : ℕ} (hi : i < n) {dt h : ℝ} (hh : 0 < h) (hdt0 : 0 ≤ dt) (hdt : dt ≤ c * h)
    {f : V → V} (hf : ∀ u ∈ S, u + h • f u ∈ S) (st : ℕ → V) (hst : ∀ j ≤ i, st j ∈ S) :
    C.β (i + 1) i • (dt • f (st i)) + ∑ j ∈ range (i + 1), C.α (i + 1) j • st j ∈ S := by
  set w := C.β (i + 1) i * dt / h with hw
  have hb := hC.betaPos i hi
  have hw0 : 0 ≤ w := by positivity
  have hwα : w ≤ C.α (i + 1) i := by
    rw [hw, div_le_iff₀ hh]
    calc C.β (i + 1) i * dt ≤ C.β (i + 1) i * (c * h) := by gcongr
      _ = c * C.β (i + 1) i * h := by ring
      _ ≤ _ := by gcongr; exact hC.beta i hi
  -- combination over `i + 2` points
  let wt : ℕ → ℝ := fun j => if j < i then C.α (i + 1) j else if j = i then C.α (i + 1) i - w else w
  let z : ℕ → V := fun j => if j ≤ i then st j else st i + h • f (st i)
  have hmem : ∑ j ∈ range (i + 2), wt j • z j ∈ S := by
    refine hS.sum_mem ?_ ?_ ?_
    · intro j hj
      simp only [wt]
      split_ifs with h1 h2
      · exact hC.nonneg i hi j (by omega)
      · linarith
      · exact hw0
    · rw [sum_range_succ, sum_range_succ, sum_congr rfl (g := fun j => C.α (i + 1) j)]
      · have := hC.rowSum i hi
        rw [sum_range_succ] at this
        simp only [wt, lt_irrefl, if_false, if_true, show ¬ (i + 1 < i) by omega,
          show ¬ (i + 1 = i) by omega]
        linarith
      · intro j hj; simp only [wt, if_pos (mem_range.1 hj)]
    · intro j hj
      simp only [z]
      split_ifs with h1
      · exact hst j h1
      · exact hf _ (hst i le_rfl)
  convert hmem using 1
  rw [sum_range_succ, sum_range_succ, sum_range_succ]
  have e1 : ∑ j ∈ range i, wt j • z j = ∑ j ∈ range i, C.α (i + 1) j • st j := by
    refine sum_congr rfl fun j hj => ?_
    have := mem_range.1 hj
    simp only [wt, z, if_pos this, if_pos this.le]
  rw [e1]
  simp only [wt, z, lt_irrefl, if_false, if_true, le_refl, show ¬ (i + 1 < i) by omega,
    show ¬ (i + 1 = i) by omega, show ¬ (i + 1 ≤ i) by omega]
  have e2 : C.β (i + 1) i • dt • f (st i) = w • h • f (st i) := by
    rw [smul_smul, smul_smul, hw]
    congr 1
    field_simp
  rw [e2, sub_smul, smul_add]
  abel

/-- A strong stability preserving step with `dt ≤ c h` stays in every convex set that forward Euler
steps of size `h` keep. -/
theorem C27_ssp_step {S : Set V} (hS : Convex ℝ S) {n : ℕ} {C : ShuOsher} {c : ℝ} (hC : Ssp n C c)
    {dt h : ℝ} (hh : 0 < h) (hdt0 : 0 ≤ dt) (hdt : dt ≤ c * h) {F : ℕ → V → V}
    (hF : ∀ i < n, ∀ u ∈ S, u + h • F i u ∈ S) (s : Sho V) (hs : s.sol ∈ S) :
    (s.advance n C dt F).sol ∈ S := by
  suffices H : ∀ m ≤ n, (loop (Sho.stage n C dt F) m s).sol ∈ S ∧
      (0 < m → ∀ j ≤ m, j < n → (loop (Sho.stage n C dt F) m s).stageSol j ∈ S) ∧
      (0 < m → m < n → (loop (Sho.stage n C dt F) m s).stageSol m
        = (loop (Sho.stage n C dt F) m s).sol) from (H n le_rfl).1
  intro m
  induction m with
  | zero => intro _; exact ⟨hs, by simp, by simp⟩
  | succ m ih =>
    intro hm
    obtain ⟨h1, h2, h3⟩ := ih (by omega)
    rw [loop]
    set t := loop (Sho.stage n C dt F) m s
    set st := if m = 0 then Function.update t.stageSol 0 t.sol else t.stageSol with hst
    have hstS : ∀ j ≤ m, st j ∈ S := by
      intro j hj
      rcases Nat.eq_zero_or_pos m with rfl | hmp
      · obtain rfl : j = 0 := by omega
        simp [hst, h1]
      · rw [hst, if_neg (by omega)]
        exact h2 hmp j hj (by omega)
    have hstm : st m = t.sol := by
      rcases Nat.eq_zero_or_pos m with rfl | hmp
      · simp [hst]
      · rw [hst, if_neg (by omega)]
        exact h3 hmp (by omega)
    have hnew : (Sho.stage n C dt F m t).sol ∈ S := by
      have := ssp_stage hS hC (i := m) (by omega) hh hdt0 hdt (hF m (by omega)) st hstS
      rw [hstm] at this
      exact this
    refine ⟨hnew, fun _ j hj hjn => ?_, fun _ hmn => ?_⟩
    · by_cases hjm : j = m + 1
      · subst hjm
        simp only [Sho.stage, if_pos hjn, Function.update_self]
        exact hnew
      · have e : (Sho.stage n C dt F m t).stageSol = if m + 1 < n then
            Function.update st (m + 1) (Sho.stage n C dt F m t).sol else st := rfl
        rw [e]
        by_cases h4 : m + 1 < n
        · rw [if_pos h4, Function.update_of_ne hjm]; exact hstS j (by omega)
        · rw [if_neg h4]; exact hstS j (by omega)
    · simp only [Sho.stage, if_pos hmn, Function.update_self]

/-- The same for any number of steps, with a right-hand side that may change from step to step. -/
def shoRun (n : ℕ) (C : ShuOsher) (dt : ℝ) (F : ℕ → ℕ → V → V) : ℕ → Sho V → Sho V
  | 0, s => s
  | m + 1, s => (shoRun n C dt F m s).advance n C dt (F m)

/-- `SSPRK33` as converted by the library satisfies the conditions with coefficient 1. -/
theorem ssprk33_ssp : Ssp 3 ⟨ssprk33.alpha, ssprk33.beta⟩ 1 := by
  have hn : ssprk33.n = 3 := rfl
  refine ⟨?_, ?_, ?_, ?_⟩
  · intro i hi j hj
    interval_cases i <;> interval_cases j <;>
      simp [Tableau.alpha, ssprk33_at0_al, hn] <;> norm_num
  · intro i hi
    interval_cases i <;>
      simp [sum_range_succ, Tableau.alpha, ssprk33_at0_al, hn] <;> norm_num
  · intro i hi
    interval_cases i <;> simp [Tableau.beta, ssprk33_at0_be] <;> norm_num
  · intro i hi
    interval_cases i <;>
      simp [Tableau.beta, ssprk33_at0_be, Tableau.alpha, ssprk33_at0_al, hn] <;> norm_num

/-- C27 for the shipped scheme: every step and every run of `SSPRK33` stays in a convex set kept by
forward Euler with the same step. -/
theorem C27_ssprk33 {S : Set V} (hS : Convex ℝ S) {dt : ℝ} (hdt : 0 < dt) {F : ℕ → ℕ → V → V}
    (hF : ∀ m i, ∀ u ∈ S, u + dt • F m i u ∈ S) (s : Sho V) (hs : s.sol ∈ S) (m : ℕ) :
    (shoRun 3 ⟨ssprk33.alpha, ssprk33.beta⟩ dt F m s).sol ∈ S := by
  induction m with
  | zero => exact hs
  | succ m ih =>
    exact C27_ssp_step hS ssprk33_ssp hdt hdt.le (by linarith) (fun i _ => hF m i) _ ih

/-- C27 in Butcher form: an explicit scheme that has some strong stability preserving Shu-Osher
representation with coefficient `c` keeps the set for `dt ≤ c h`, from any state in which the
private copy of the solution is current. -/
theorem C27_erk {S : Set V} (hS : Convex ℝ S) {T : Tableau} (hn : 0 < T.n)
    (hT : ∀ i < T.n, ∀ j < T.n, i ≤ j → T.a i j = 0) {C : ShuOsher} {c : ℝ}
    (hcons : Consistent T C) (hC : Ssp T.n C c)
    {dt h : ℝ} (hh : 0 < h) (hdt0 : 0 ≤ dt) (hdt : dt ≤ c * h) {F : ℕ → V → V}
    (hF : ∀ i < T.n, ∀ u ∈ S, u + h • F i u ∈ S) (s : Erk V) (hs : s.sol ∈ S)
    (hcur : s.inited = false ∨ s.old = s.sol) :
    (s.advance T dt F).sol ∈ S := by
  have h1 := C20_butcher_is_textbook T dt F s hcur
  have h2 := consistent_is_textbook T hT hn C hcons dt F ⟨s.sol, fun _ => s.sol⟩
  rw [butcherStep_unique h1 h2]
  exact C27_ssp_step hS hC hh hdt0 hdt hF _ hs

/-- Shu-Osher coefficients from lists. -/
noncomputable def shuOf (α : List (List ℝ)) (β : List ℝ) : ShuOsher :=
  ⟨fun i j => if i = 0 then 0 else (α.getD (i - 1) []).getD j 0,
   fun i j => if i = 0 then 0 else if j + 1 = i then β.getD j 0 else 0⟩

/-- A representation of `ERKLPUM2`. -/
noncomputable def lpum2C : ShuOsher :=
  shuOf [[1], [0, 1], [1 / 3, 0, 2 / 3]] [1 / 2, 1 / 2, 1 / 3]
/-- A representation of `ERKLSPUM2`. -/
noncomputable def lspum2C : ShuOsher :=
  shuOf [[1], [9 / 20, 11 / 20], [7 / 25, 78 / 275, 24 / 55]] [5 / 6, 11 / 24, 4 / 11]

theorem erkLPUM2_lower : ∀ i < erkLPUM2.n, ∀ j < erkLPUM2.n, i ≤ j → erkLPUM2.a i j = 0 := by
  intro i hi j hj hij
  have hi : i < 3 := hi
  have hj : j < 3 := hj
  interval_cases i <;> interval_cases j <;> first | omega | rfl

theorem erkLSPUM2_lower : ∀ i < erkLSPUM2.n, ∀ j < erkLSPUM2.n, i ≤ j → erkLSPUM2.a i j = 0 := by
  intro i hi j hj hij
  have hi : i < 3 := hi
  have hj : j < 3 := hj
  interval_cases i <;> interval_cases j <;> first | omega | rfl

theorem lpum2_consistent : Consistent erkLPUM2 lpum2C := by
  have hn : erkLPUM2.n = 3 := rfl
  refine ⟨?_, ?_⟩
  · intro i hi
    rw [hn] at hi
    interval_cases i <;> simp [sum_range_succ, lpum2C, shuOf] <;> norm_num
  · intro i hi l hl
    rw [hn] at hi hl
    interval_cases i <;> interval_cases l <;>
      simp [sum_range_succ, lpum2C, shuOf, Tableau.butcher, hn, erkLPUM2, mk, vec] <;> norm_num

theorem lspum2_consistent : Consistent erkLSPUM2 lspum2C := by
  have hn : erkLSPUM2.n = 3 := rfl
  refine ⟨?_, ?_⟩
  · intro i hi
    rw [hn] at hi
    interval_cases i <;> simp [sum_range_succ, lspum2C, shuOf] <;> norm_num
  · intro i hi l hl
    rw [hn] at hi hl
    interval_cases i <;> interval_cases l <;>
      simp [sum_range_succ, lspum2C, shuOf, Tableau.butcher, hn, erkLSPUM2, mk, vec] <;> norm_num

theorem lpum2_ssp : Ssp 3 lpum2C 2 := by
  refine ⟨?_, ?_, ?_, ?_⟩
  · intro i hi j hj
    interval_cases i <;> interval_cases j <;> simp [lpum2C, shuOf] <;> norm_num
  · intro i hi; exact lpum2_consistent.rowSum i hi
  · intro i hi
    interval_cases i <;> simp [lpum2C, shuOf]
  · intro i hi
    interval_cases i <;> simp [lpum2C, shuOf] <;> norm_num

theorem lspum2_ssp : Ssp 3 lspum2C (6 / 5) := by
  refine ⟨?_, ?_, ?_, ?_⟩
  · intro i hi j hj
    interval_cases i <;> interval_cases j <;> simp [lspum2C, shuOf] <;> norm_num
  · intro i hi; exact lspum2_consistent.rowSum i hi
  · intro i hi
    interval_cases i <;> simp [lspum2C, shuOf] <;> norm_num
  · intro i hi
    interval_cases i <;> simp [lspum2C, shuOf] <;> norm_num

/-- `cfl_coeff = 2.0` of `ERKLPUM2` (rungekutta.py:368-384) is a valid strong stability
coefficient: steps up to twice the forward Euler step are allowed. -/
theorem C27_erkLPUM2 {S : Set V} (hS : Convex ℝ S) {dt h : ℝ} (hh : 0 < h) (hdt0 : 0 ≤ dt)
    (hdt : dt ≤ 2 * h) {F : ℕ → V → V} (hF : ∀ i, ∀ u ∈ S, u + h • F i u ∈ S) (s : Erk V)
    (hs : s.sol ∈ S) (hcur : s.inited = false ∨ s.old = s.sol) :
    (s.advance erkLPUM2 dt F).sol ∈ S :=
  C27_erk hS (by decide) erkLPUM2_lower lpum2_consistent lpum2_ssp hh hdt0 hdt (fun i _ => hF i) s hs hcur

/-- `cfl_coeff = 1.2` of `ERKLSPUM2` (rungekutta.py:350-365) is a valid strong stability
coefficient. -/
theorem C27_erkLSPUM2 {S : Set V} (hS : Convex ℝ S) {dt h : ℝ} (hh : 0 < h) (hdt0 : 0 ≤ dt)
    (hdt : dt ≤ 6 / 5 * h) {F : ℕ → V → V} (hF : ∀ i, ∀ u ∈ S, u + h • F i u ∈ S) (s : Erk V)
    (hs : s.sol ∈ S) (hcur : s.inited = false ∨ s.old = s.sol) :
    (s.advance erkLSPUM2 dt F).sol ∈ S :=
  C27_erk hS (by decide) erkLSPUM2_lower lspum2_consistent lspum2_ssp hh hdt0 hdt (fun i _ => hF i) s hs hcur

/-- Hypotheses met: decay with rate 1 keeps `[0, 1]` under forward Euler with step 1; so does
`ERKLPUM2` with step 2. -/
example (s : Erk ℝ) (hs : s.sol ∈ Set.Icc (0 : ℝ) 1) (h : s.inited = false) :
    (s.advance erkLPUM2 2 (fun _ u => -u)).sol ∈ Set.Icc (0 : ℝ) 1 :=
  C27_erkLPUM2 (convex_Icc 0 1) one_pos (by norm_num) (by norm_num)
    (fun _ u _ => by simp) s hs (Or.inl h)

/-- The condition on the coefficients matters: explicit midpoint (`cfl_coeff = 1.0`) can leave a set
that forward Euler steps of the same size keep. -/
example : ∃ (f : ℝ → ℝ), (∀ u ∈ Set.Icc (0 : ℝ) 1, u + (1 : ℝ) • f u ∈ Set.Icc (0 : ℝ) 1) ∧
    ((⟨1 / 4, 0, fun _ => 0, false⟩ : Erk ℝ).advance erkMidpoint 1 (fun _ u => f u)).sol
      ∉ Set.Icc (0 : ℝ) 1 := by
  refine ⟨fun u => if u = 1 / 4 then 1 / 2 else if u = 1 / 2 then -1 / 2 else 0, ?_, ?_⟩
  · intro u hu
    simp only [Set.mem_Icc, smul_eq_mul, one_mul] at hu ⊢
    split_ifs with h1 h2
    · subst h1; norm_num
    · subst h2; norm_num
    · simpa using hu
  · have : ((⟨1 / 4, 0, fun _ => 0, false⟩ : Erk ℝ).advance erkMidpoint 1 (fun _ u =>
        if u = 1 / 4 then 1 / 2 else if u = 1 / 2 then -1 / 2 else 0)).sol = -1 / 4 := by
      norm_num [Erk.advance, loop, Erk.stage, Erk.initialize, Erk.updateSolution, Erk.getFinal,
        Erk.solveTendency, erkMidpoint, mk, vec, sum_range_succ, Function.update]
    rw [this]
    norm_num

/-! ### C28: external changes -/

/-- A step of the Shu-Osher integrator starts from the current solution: stored stage values have
no influence. -/
theorem C28_shuosher_partial (n : ℕ) (C : ShuOsher) (dt : ℝ) (F : ℕ → V → V) (s t : Sho V)
    (h : s.sol = t.sol) : (s.advance n C dt F).sol = (t.advance n C dt F).sol := by
  suffices H : ∀ m ≤ n, (loop (Sho.stage n C dt F) m s).sol = (loop (Sho.stage n C dt F) m t).sol ∧
      (0 < m → ∀ j ≤ m, j < n → (loop (Sho.stage n C dt F) m s).stageSol j
        = (loop (Sho.stage n C dt F) m t).stageSol j) from (H n le_rfl).1
  intro m
  induction m with
  | zero => intro _; exact ⟨h, by simp⟩
  | succ m ih =>
    intro hm
    obtain ⟨h1, h2⟩ := ih (by omega)
    simp only [loop]
    set x := loop (Sho.stage n C dt F) m s
    set y := loop (Sho.stage n C dt F) m t
    have hst : ∀ j ≤ m, (if m = 0 then Function.update x.stageSol 0 x.sol else x.stageSol) j
        = (if m = 0 then Function.update y.stageSol 0 y.sol else y.stageSol) j := by
      intro j hj
      by_cases hm0 : m = 0
      · obtain rfl : j = 0 := by omega
        simp [hm0, h1]
      · rw [if_neg hm0, if_neg hm0]
        exact h2 (by omega) j hj (by omega)
    have hsol : (Sho.stage n C dt F m x).sol = (Sho.stage n C dt F m y).sol := by
      simp only [Sho.stage, h1]
      congr 1
      refine sum_congr rfl fun j hj => ?_
      have := hst j (by have := mem_range.1 hj; omega)
      rw [h1] at this
      rw [this]
    refine ⟨hsol, fun _ j hj hjn => ?_⟩
    have e : ∀ z : Sho V, (Sho.stage n C dt F m z).stageSol = if m + 1 < n then
        Function.update (if m = 0 then Function.update z.stageSol 0 z.sol else z.stageSol) (m + 1)
          (Sho.stage n C dt F m z).sol
        else (if m = 0 then Function.update z.stageSol 0 z.sol else z.stageSol) := fun _ => rfl
    rw [e, e]
    by_cases h4 : m + 1 < n
    · rw [if_pos h4, if_pos h4]
      by_cases hjm : j = m + 1
      · subst hjm; rw [Function.update_self, Function.update_self, hsol]
      · rw [Function.update_of_ne hjm, Function.update_of_ne hjm]; exact hst j (by omega)
    · rw [if_neg h4, if_neg h4]; exact hst j (by omega)

/-- A step of a diagonally implicit integrator (tendency form) starts from the current solution. -/
theorem C28_dirk_partial (T : Tableau) (hn : 0 < T.n) (dt : ℝ) (semi : Bool) (R : ℕ → V → V → V)
    (root : (V → V) → V) (s t : Dirk V) (h : s.sol = t.sol) :
    (s.advance T dt semi R root).sol = (t.advance T dt semi R root).sol := by
  have H : ∀ m, (loop (Dirk.stage T dt semi R root) m s).sol
        = (loop (Dirk.stage T dt semi R root) m t).sol ∧
      (0 < m → (loop (Dirk.stage T dt semi R root) m s).old
        = (loop (Dirk.stage T dt semi R root) m t).old) ∧
      (∀ j < m, (loop (Dirk.stage T dt semi R root) m s).k j
        = (loop (Dirk.stage T dt semi R root) m t).k j) := by
    intro m
    induction m with
    | zero => exact ⟨h, by simp, by simp⟩
    | succ m ih =>
      obtain ⟨h1, h2, h3⟩ := ih
      simp only [loop]
      set x := loop (Dirk.stage T dt semi R root) m s
      set y := loop (Dirk.stage T dt semi R root) m t
      have hold : (if m = 0 then x.sol else x.old) = (if m = 0 then y.sol else y.old) := by
        by_cases hm0 : m = 0
        · rw [if_pos hm0, if_pos hm0, h1]
        · rw [if_neg hm0, if_neg hm0, h2 (by omega)]
      have hk : ∀ j < m + 1, (x.solveTendency T dt semi R root m).k j
          = (y.solveTendency T dt semi R root m).k j := by
        intro j hj
        have hsum : ∑ j ∈ range m, (T.a m j * dt) • x.k j = ∑ j ∈ range m, (T.a m j * dt) • y.k j :=
          sum_congr rfl fun j hj => by rw [h3 j (mem_range.1 hj)]
        have hold2 := hold
        rw [h1] at hold2
        simp only [Dirk.solveTendency, hsum, h1, hold2]
        by_cases hjm : j = m
        · subst hjm; rw [Function.update_self, Function.update_self]
        · rw [Function.update_of_ne hjm, Function.update_of_ne hjm]; exact h3 j (by omega)
      have hold' : (x.solveTendency T dt semi R root m).old
          = (y.solveTendency T dt semi R root m).old := hold
      refine ⟨?_, fun _ => hold', hk⟩
      simp only [Dirk.stage, Dirk.updateSolution]
      rw [hold']
      congr 1
      exact sum_congr rfl fun j hj => by rw [hk j (mem_range.1 hj)]
  obtain ⟨h1, h2, h3⟩ := H T.n
  simp only [Dirk.advance, Dirk.getFinal]
  rw [h2 hn]
  congr 1
  exact sum_congr rfl fun j hj => by rw [h3 j (mem_range.1 hj)]

/-- A step of a diagonally implicit integrator (solution form) starts from the current solution. -/
theorem C28_dirk_uform_partial (T : Tableau) (dt : ℝ) (semi : Bool) (R : ℕ → V → V → V)
    (root : (V → V) → V) (s t : Dirk V) (h : s.sol = t.sol) :
    (s.advanceU T dt semi R root).sol = (t.advanceU T dt semi R root).sol := by
  suffices H : ∀ m ≤ T.n, (loop (Dirk.stageU T dt semi R root) m s).sol
        = (loop (Dirk.stageU T dt semi R root) m t).sol ∧
      (0 < m → (loop (Dirk.stageU T dt semi R root) m s).old
        = (loop (Dirk.stageU T dt semi R root) m t).old) ∧
      (∀ j < m, j < T.n - 1 → (loop (Dirk.stageU T dt semi R root) m s).k j
        = (loop (Dirk.stageU T dt semi R root) m t).k j) from (H T.n le_rfl).1
  intro m
  induction m with
  | zero => intro _; exact ⟨h, by simp, by simp⟩
  | succ m ih =>
    intro hm
    obtain ⟨h1, h2, h3⟩ := ih (by omega)
    simp only [loop]
    set x := loop (Dirk.stageU T dt semi R root) m s
    set y := loop (Dirk.stageU T dt semi R root) m t
    have hold : (if m = 0 then x.sol else x.old) = (if m = 0 then y.sol else y.old) := by
      by_cases hm0 : m = 0
      · rw [if_pos hm0, if_pos hm0, h1]
      · rw [if_neg hm0, if_neg hm0, h2 (by omega)]
    have hsum : ∑ j ∈ range m, (dt * T.a m j) • x.k j = ∑ j ∈ range m, (dt * T.a m j) • y.k j :=
      sum_congr rfl fun j hj => by
        have := mem_range.1 hj
        rw [h3 j this (by omega)]
    refine ⟨?_, fun _ => hold, ?_⟩
    · simp only [Dirk.stageU, hsum, hold]
    · intro j hj hjn
      simp only [Dirk.stageU, hsum, hold]
      by_cases hmn : m < T.n - 1
      · rw [if_pos hmn, if_pos hmn]
        by_cases hjm : j = m
        · subst hjm; rw [Function.update_self, Function.update_self]
        · rw [Function.update_of_ne hjm, Function.update_of_ne hjm]; exact h3 j (by omega) hjn
      · rw [if_neg hmn, if_neg hmn]; exact h3 j (by omega) hjn

/-- The explicit and the theta scheme start from the current solution. -/
theorem C28_two_level_partial {P : Type*} (θ dt : ℝ) (semi : Bool) (R : V → V → P → V)
    (root : (V → V) → V) (p : P) (s t : TwoLevel V P) (h : s.sol = t.sol)
    (hf : s.fieldsOld = t.fieldsOld) :
    s.forwardEuler dt R p = t.forwardEuler dt R p ∧
    s.crankNicolson θ dt semi R root p = t.crankNicolson θ dt semi R root p := by
  simp [TwoLevel.forwardEuler, TwoLevel.crankNicolson, h, hf]

/-- Both moving-mesh schemes start from the current solution (the leap-frog scheme also uses the
solution of the step before, in the prediction only). -/
theorem C28_moving_mesh_partial {W : Type*} [AddCommGroup W] [Module ℝ W] (dt : ℝ) (M₀ L₀ L₁ : V → W)
    (Minv₁ Minv₂ : W → V) (s t : Ale V W) (h : s.sol = t.sol) (p q : Leap V W) (h' : p.sol = q.sol)
    (hold : p.old = q.old) (hm : p.minv = q.minv) :
    (s.advance dt M₀ L₀ L₁ Minv₁ Minv₂).sol = (t.advance dt M₀ L₀ L₁ Minv₁ Minv₂).sol ∧
    (p.advance dt M₀ L₀ L₁ Minv₁).sol = (q.advance dt M₀ L₀ L₁ Minv₁).sol := by
  simp [Ale.advance, Ale.prep1, Ale.prep2, Ale.solve, Leap.advance, Leap.predict, Leap.evalRhs,
    Leap.correct, h, h', hold, hm]

/-- The explicit Butcher integrator discards every change made after it has been initialised: the
new solution does not depend on the current one at all. -/
theorem C28_erk_violation (T : Tableau) (hn : 0 < T.n) (dt : ℝ) (F : ℕ → V → V) (s : Erk V)
    (hi : s.inited = true) (x : V) :
    ({ s with sol := x } : Erk V).advance T dt F = s.advance T dt F := by
  have h0 : ∀ s : Erk V, Erk.stage T dt F 0 { s with sol := x } = Erk.stage T dt F 0 s := by
    intro s; simp [Erk.stage, Erk.updateSolution, Erk.solveTendency]
  have H : ∀ m, loop (Erk.stage T dt F) (m + 1) { s with sol := x }
      = loop (Erk.stage T dt F) (m + 1) s := by
    intro m
    induction m with
    | zero => exact h0 s
    | succ m ih => rw [loop, ih]; rfl
  obtain ⟨m, hm⟩ : ∃ m, T.n = m + 1 := ⟨T.n - 1, by omega⟩
  have H' := H m
  rw [hi] at H'
  simp only [Erk.advance, hi, if_true, hm]
  rw [H']

/-- The same for the implicit-explicit integrator, which contains the one above. -/
theorem C28_imex_violation (TE TI : Tableau) (hn : 0 < TE.n) (dt : ℝ) (semi : Bool)
    (FE : ℕ → V → V) (FI : ℕ → V → V → V) (root : (V → V) → V) (s : Imex V) (x : V) :
    ({ s with sol := x } : Imex V).advance TE TI dt semi FE FI root
      = s.advance TE TI dt semi FE FI root := by
  have h0 : Imex.stage TE TI dt semi FE FI root 0 { s with sol := x }
      = Imex.stage TE TI dt semi FE FI root 0 s := by
    simp [Imex.stage, Erk.updateSolution, Imex.putErk, Imex.erk]
  have H : ∀ m, loop (Imex.stage TE TI dt semi FE FI root) (m + 1) { s with sol := x }
      = loop (Imex.stage TE TI dt semi FE FI root) (m + 1) s := by
    intro m
    induction m with
    | zero => exact h0
    | succ m ih => rw [loop, ih]; rfl
  obtain ⟨m, hm⟩ : ∃ m, TE.n = m + 1 := ⟨TE.n - 1, by omega⟩
  simp only [Imex.advance, hm]
  rw [H]

end

/-- Concrete loss: a limiter sets the solution from 2 to 1 between two steps of `y' = 0`; the next
step returns 2. -/
example : (({ (⟨2, 0, fun _ => 0, false⟩ : Erk ℝ).advance erkLPUM2 1 (fun _ _ => 0) with sol := 1 } :
    Erk ℝ).advance erkLPUM2 1 (fun _ _ => 0)).sol = 2 := by
  rw [C28_erk_violation erkLPUM2 (by decide) 1 _ _ rfl]
  norm_num [Erk.advance, loop, Erk.stage, Erk.initialize, Erk.updateSolution, Erk.getFinal,
    Erk.solveTendency, erkLPUM2, mk, vec, sum_range_succ, Function.update]

/-! ### Concrete cases for the hypotheses of C22 and C23 -/

theorem γ22_pos : 0 < γ22 := by
  have : Real.sqrt 2 < 2 := by
    rw [Real.sqrt_lt' (by norm_num)]; norm_num
  unfold γ22; linarith

/-- C22: `DIRK22` on a decay problem. -/
example (root : (ℝ → ℝ) → ℝ) (hroot : RootFinder root) (s : Dirk ℝ) :
    (s.advanceU dirk22 (1 / 10) false (decay 3) root).sol
      = (s.advance dirk22 (1 / 10) false (decay 3) root).sol :=
  C22_uform_eq_tendency_partial dirk22 (by decide)
    (by intro j hj; have hj : j < 2 := hj; interval_cases j <;> rfl)
    (by intro j hj; have hj : j < 2 := hj; interval_cases j <;> exact γ22_pos.ne')
    _ (by norm_num) false _ (Or.inr fun _ _ _ _ => rfl) root hroot
    (decay_solvable _ _ _ (by norm_num) (by norm_num) (by
      intro j hj; have hj : j < 2 := hj; interval_cases j <;> exact γ22_pos.le)) s s rfl

/-- C23: `IMEXLPUM2` with explicit growth and implicit decay. -/
example (root : (ℝ → ℝ) → ℝ) (hroot : RootFinder root) (s : Imex ℝ) :
    AdditiveStep 3 erkLPUM2.a erkLPUM2.b dirkLPUM2.a dirkLPUM2.b (1 / 10) (fun _ u => u)
      (decay 3) ((Imex.advance erkLPUM2 dirkLPUM2 (1 / 10) false (fun _ u => u)
        (decay 3) root)^[4] s.initialize).sol
      ((Imex.advance erkLPUM2 dirkLPUM2 (1 / 10) false (fun _ u => u)
        (decay 3) root)^[5] s.initialize).sol :=
  C23_imex_run erkLPUM2 dirkLPUM2 rfl _ _ _ _ root hroot
    (decay_solvable _ _ _ (by norm_num) (by norm_num) (by
      intro j hj; have hj : j < 3 := hj
      interval_cases j <;> norm_num [dirkLPUM2, mk, vec])) s 4

end Verif.RK
