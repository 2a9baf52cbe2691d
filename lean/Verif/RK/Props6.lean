import Verif.RK.Props4
import Verif.RK.Props5
import Mathlib.Tactic.Linarith
import Mathlib.Tactic.Positivity

/-!
C123: budgets of totals over runs of the time integrators on a fixed mesh.

A total is a linear functional `tot` of the solution (water volume, tracer mass, momentum).  What the terms of an equation add
to it per unit of time is `tot` of the residual.  Nonlinear solvers need not be exact: what they leave of the total of a
residual is at most `tol`.
-/

namespace Verif.RK

open Finset

section

variable {V : Type*} [AddCommGroup V] [Module ℝ V] {P : Type*}

/-- One step changes the total by the weighted rates at some states, up to `e`. -/
def Budget (tot : V →ₗ[ℝ] ℝ) (n : ℕ) (b : ℕ → ℝ) (dt : ℝ) (R : ℕ → V → V → V) (e : ℝ) (u u' : V) : Prop :=
  ∃ U W : ℕ → V, |tot u' - tot u - dt * ∑ j ∈ range n, b j * tot (R j (U j) (W j))| ≤ e

/-- What `C123` claims of a run `u`: with rates that depend on the step and the stage only the total is the sum of the weighted
rates; with weights that are not negative the total grows at a rate between bounds of the rates. -/
def Accounts (tot : V →ₗ[ℝ] ℝ) (n : ℕ) (b : ℕ → ℝ) (dt : ℝ) (R : ℕ → ℕ → V → V → V) (e : ℝ) (u : ℕ → V) : Prop :=
  (∀ g : ℕ → ℕ → ℝ, (∀ m, ∀ j < n, ∀ v w, tot (R m j v w) = g m j) → ∀ N,
    |tot (u N) - tot (u 0) - dt * ∑ m ∈ range N, ∑ j ∈ range n, b j * g m j| ≤ N * e) ∧
  (0 ≤ dt → (∀ j < n, 0 ≤ b j) → ∑ j ∈ range n, b j = 1 →
    ∀ lo hi, (∀ m, ∀ j < n, ∀ v w, lo ≤ tot (R m j v w) ∧ tot (R m j v w) ≤ hi) → ∀ N : ℕ,
      N * (dt * lo - e) ≤ tot (u N) - tot (u 0) ∧ tot (u N) - tot (u 0) ≤ N * (dt * hi + e))

theorem accounts_of (tot : V →ₗ[ℝ] ℝ) (n : ℕ) (b : ℕ → ℝ) (dt : ℝ) (R : ℕ → ℕ → V → V → V) (e : ℝ) (u : ℕ → V)
    (h : ∀ m, Budget tot n b dt (R m) e (u m) (u (m + 1))) : Accounts tot n b dt R e u := by
  refine ⟨fun g hg N => ?_, fun hdt hb hs lo hi hR N => ?_⟩
  · induction N with
    | zero => simp
    | succ N ih =>
      obtain ⟨U, W, hN⟩ := h N
      have : ∑ j ∈ range n, b j * tot (R N j (U j) (W j)) = ∑ j ∈ range n, b j * g N j :=
        sum_congr rfl fun j hj => by rw [hg N j (mem_range.1 hj)]
      rw [this] at hN
      rw [sum_range_succ, mul_add]
      push_cast
      rw [abs_le] at *
      constructor <;> linarith [hN.1, hN.2, ih.1, ih.2]
  · induction N with
    | zero => simp
    | succ N ih =>
      obtain ⟨U, W, hN⟩ := h N
      have h1 : lo ≤ ∑ j ∈ range n, b j * tot (R N j (U j) (W j)) := by
        calc lo = ∑ j ∈ range n, b j * lo := by rw [← sum_mul, hs, one_mul]
          _ ≤ _ := sum_le_sum fun j hj => mul_le_mul_of_nonneg_left (hR N j (mem_range.1 hj) _ _).1 (hb j (mem_range.1 hj))
      have h2 : ∑ j ∈ range n, b j * tot (R N j (U j) (W j)) ≤ hi := by
        calc _ ≤ ∑ j ∈ range n, b j * hi :=
              sum_le_sum fun j hj => mul_le_mul_of_nonneg_left (hR N j (mem_range.1 hj) _ _).2 (hb j (mem_range.1 hj))
          _ = hi := by rw [← sum_mul, hs, one_mul]
      have h3 := mul_le_mul_of_nonneg_left h1 hdt
      have h4 := mul_le_mul_of_nonneg_left h2 hdt
      rw [abs_le] at hN
      push_cast
      constructor <;> linarith [hN.1, hN.2, ih.1, ih.2]

/-! ### Explicit schemes -/

theorem budget_of_butcher (tot : V →ₗ[ℝ] ℝ) {n : ℕ} {a : ℕ → ℕ → ℝ} {b : ℕ → ℝ} {dt : ℝ} {F : ℕ → V → V} {u u' : V}
    (h : ButcherStep n a b dt F u u') : Budget tot n b dt (fun j v _ => F j v) 0 u u' := by
  obtain ⟨K, h1, h2⟩ := h
  refine ⟨fun i => u + dt • ∑ j ∈ range i, a i j • K j, K, ?_⟩
  have : ∀ j ∈ range n, b j * tot (F j (u + dt • ∑ l ∈ range j, a j l • K l)) = b j * tot (K j) := fun j hj => by
    rw [← h1 j (mem_range.1 hj)]
  rw [h2, sum_congr rfl this]
  simp only [map_add, map_smul, map_sum, smul_eq_mul]
  rw [abs_nonpos_iff]
  ring

/-- C123, explicit schemes in Butcher form. -/
theorem C123_erk (tot : V →ₗ[ℝ] ℝ) (T : Tableau) (dt : ℝ) (F : ℕ → ℕ → V → V) (s : Erk V)
    (h : s.inited = false ∨ s.old = s.sol) :
    Accounts tot T.n T.b dt (fun m j v _ => F m j v) 0 fun m => (Erk.run T dt F m s).sol :=
  accounts_of _ _ _ _ _ _ _ fun m => budget_of_butcher tot (C20_run T dt F s h m)

/-- A run of the Shu-Osher integrator. -/
def Sho.run (n : ℕ) (C : ShuOsher) (dt : ℝ) (F : ℕ → ℕ → V → V) : ℕ → Sho V → Sho V
  | 0, s => s
  | m + 1, s => (Sho.run n C dt F m s).advance n C dt (F m)

/-- C123, explicit schemes in Shu-Osher form. -/
theorem C123_shuosher (tot : V →ₗ[ℝ] ℝ) (T : Tableau) (hT : ∀ i < T.n, ∀ j < T.n, i ≤ j → T.a i j = 0) (hn : 0 < T.n)
    (htiny : NoTinyEntries T) (C : ShuOsher) (hC : toShuOsher T = some C) (dt : ℝ) (F : ℕ → ℕ → V → V) (s : Sho V) :
    Accounts tot T.n T.b dt (fun m j v _ => F m j v) 0 fun m => (Sho.run T.n C dt F m s).sol :=
  accounts_of _ _ _ _ _ _ _ fun m => budget_of_butcher tot (C20_shuosher_is_textbook T hT hn htiny C hC dt (F m) _)

/-- The scheme for tracers in 3D and 2D; conservation written out. -/
theorem C123_ssprk33 (tot : V →ₗ[ℝ] ℝ) (C : ShuOsher) (hC : toShuOsher ssprk33 = some C) (dt : ℝ) (F : ℕ → ℕ → V → V)
    (hF : ∀ m j v, tot (F m j v) = 0) (s : Sho V) (N : ℕ) : tot (Sho.run 3 C dt F N s).sol = tot s.sol := by
  have h := (C123_shuosher tot ssprk33 ssprk33_lower (by simp [ssprk33, mk]) ssprk33_notiny C hC dt F s).1 (fun _ _ => 0)
    (fun m j _ v _ => hF m j v) N
  simp only [mul_zero, sum_const_zero, sub_zero, abs_nonpos_iff] at h
  exact sub_eq_zero.1 h

/-! ### Diagonally implicit schemes -/

/-- The equation of stage `i` as `DIRKGeneric` writes it: `w` collects the stages before, `v` is the state of the
coefficients. -/
def stageEq (T : Tableau) (dt : ℝ) (R : ℕ → V → V → V) (i : ℕ) (w v k : V) : V :=
  -k + R i (w + (T.a i i * dt) • k) v

theorem dirk_weak (T : Tableau) (dt : ℝ) (semi : Bool) (R : ℕ → V → V → V) (root : (V → V) → V) (s : Dirk V) (m : ℕ) :
    (0 < m → (loop (Dirk.stage T dt semi R root) m s).old = s.sol) ∧
    (m = 0 → (loop (Dirk.stage T dt semi R root) m s).sol = s.sol) ∧
    ∀ j < m, ∃ w v, (loop (Dirk.stage T dt semi R root) m s).k j = root (stageEq T dt R j w v) := by
  induction m with
  | zero => exact ⟨fun h => absurd h (lt_irrefl 0), fun _ => rfl, fun j hj => absurd hj (Nat.not_lt_zero j)⟩
  | succ m ih =>
    obtain ⟨h1, h2, h3⟩ := ih
    set L := loop (Dirk.stage T dt semi R root) m s with hL
    have hst : loop (Dirk.stage T dt semi R root) (m + 1) s = Dirk.stage T dt semi R root m L := rfl
    rw [hst]
    refine ⟨fun _ => ?_, fun h => absurd h (Nat.succ_ne_zero m), fun j hj => ?_⟩
    · by_cases h0 : m = 0
      · simp [Dirk.stage, Dirk.updateSolution, Dirk.solveTendency, h0, h2 h0]
      · simp [Dirk.stage, Dirk.updateSolution, Dirk.solveTendency, h0, h1 (Nat.pos_of_ne_zero h0)]
    · rcases Nat.lt_succ_iff_lt_or_eq.1 hj with hj | rfl
      · obtain ⟨w, v, h⟩ := h3 j hj
        exact ⟨w, v, by rw [← h]; simp [Dirk.stage, Dirk.updateSolution, Dirk.solveTendency, Function.update_of_ne hj.ne]⟩
      · refine ⟨(if j = 0 then L.sol else L.old) + ∑ l ∈ range j, (T.a j l * dt) • L.k l,
          if semi then (if j = 0 then L.sol else L.old) else L.sol, ?_⟩
        simp only [Dirk.stage, Dirk.updateSolution, Dirk.solveTendency, Function.update_self]
        rfl

theorem tot_stage (tot : V →ₗ[ℝ] ℝ) (T : Tableau) (dt : ℝ) (R : ℕ → V → V → V) (i : ℕ) (w v k : V) :
    tot k = tot (R i (w + (T.a i i * dt) • k) v) - tot (stageEq T dt R i w v k) := by
  simp [stageEq]

theorem weighted_error (n : ℕ) (b x y : ℕ → ℝ) (dt tol : ℝ) (h : ∀ j < n, |x j - y j| ≤ tol) :
    |dt * ∑ j ∈ range n, b j * x j - dt * ∑ j ∈ range n, b j * y j| ≤ |dt| * (∑ j ∈ range n, |b j|) * tol := by
  rw [← mul_sub, abs_mul, ← sum_sub_distrib, mul_assoc]
  refine mul_le_mul_of_nonneg_left ?_ (abs_nonneg _)
  refine (abs_sum_le_sum_abs _ _).trans ?_
  rw [sum_mul]
  refine sum_le_sum fun j hj => ?_
  rw [← mul_sub, abs_mul]
  exact mul_le_mul_of_nonneg_left (h j (mem_range.1 hj)) (abs_nonneg _)

/-- A run of `DIRKGeneric`. -/
def Dirk.run (T : Tableau) (dt : ℝ) (semi : Bool) (R : ℕ → ℕ → V → V → V) (root : (V → V) → V) : ℕ → Dirk V → Dirk V
  | 0, s => s
  | m + 1, s => (Dirk.run T dt semi R root m s).advance T dt semi (R m) root

/-- C123, diagonally implicit schemes: solvers that leave at most `tol` of the total of each stage equation. -/
theorem C123_dirk (tot : V →ₗ[ℝ] ℝ) (T : Tableau) (hn : 0 < T.n) (dt : ℝ) (semi : Bool) (R : ℕ → ℕ → V → V → V)
    (root : (V → V) → V) (tol : ℝ)
    (hroot : ∀ m, ∀ i < T.n, ∀ w v, |tot (stageEq T dt (R m) i w v (root (stageEq T dt (R m) i w v)))| ≤ tol) (s : Dirk V) :
    Accounts tot T.n T.b dt R (|dt| * (∑ j ∈ range T.n, |T.b j|) * tol) fun m => (Dirk.run T dt semi R root m s).sol := by
  refine accounts_of _ _ _ _ _ _ _ fun m => ?_
  set A := Dirk.run T dt semi R root m s
  obtain ⟨h1, -, h3⟩ := dirk_weak T dt semi (R m) root A T.n
  set L := loop (Dirk.stage T dt semi (R m) root) T.n A with hL
  have hs : (Dirk.run T dt semi R root (m + 1) s).sol = A.sol + ∑ j ∈ range T.n, (dt * T.b j) • L.k j := by
    rw [← h1 hn]; rfl
  choose! w v hk using h3
  refine ⟨fun j => w j + (T.a j j * dt) • L.k j, v, ?_⟩
  rw [hs]
  have e : tot (A.sol + ∑ j ∈ range T.n, (dt * T.b j) • L.k j) - tot A.sol = dt * ∑ j ∈ range T.n, T.b j * tot (L.k j) := by
    simp only [map_add, map_sum, map_smul, smul_eq_mul, mul_sum, mul_assoc]
    ring
  rw [e]
  refine weighted_error _ _ _ _ _ _ fun j hj => ?_
  rw [tot_stage tot T dt (R m) j (w j) (v j) (L.k j)]
  have := hroot m j hj (w j) (v j)
  rw [← hk j hj] at this
  rw [sub_sub_cancel_left, abs_neg]
  exact this

/-! ### The solution form -/

/-- What stays of the stage equation of `DIRKGenericUForm` for the trial value `u`. -/
def stageEqU (T : Tableau) (dt : ℝ) (semi : Bool) (R : ℕ → V → V → V) (i : ℕ) (old w u : V) : V :=
  (u - old) - ((dt * T.a i i) • R i u (if semi then old else u) + w)

/-- The equation for the stored tendency. -/
def tendencyEqU (T : Tableau) (dt : ℝ) (i : ℕ) (d w k : V) : V := (dt * T.a i i) • k - d + w

theorem uform_weak (T : Tableau) (dt : ℝ) (semi : Bool) (R : ℕ → V → V → V) (root : (V → V) → V) (s : Dirk V) (m : ℕ)
    (hm : m ≤ T.n) :
    (0 < m → (loop (Dirk.stageU T dt semi R root) m s).old = s.sol) ∧
    (m = 0 → (loop (Dirk.stageU T dt semi R root) m s).sol = s.sol) ∧
    (∀ j < m, j < T.n - 1 → ∃ u w, u = root (stageEqU T dt semi R j s.sol w) ∧
      (loop (Dirk.stageU T dt semi R root) m s).k j = root (tendencyEqU T dt j (u - s.sol) w)) ∧
    ∀ i, m = i + 1 → (loop (Dirk.stageU T dt semi R root) m s).sol
      = root (stageEqU T dt semi R i s.sol (∑ j ∈ range i, (dt * T.a i j) • (loop (Dirk.stageU T dt semi R root) m s).k j)) := by
  induction m with
  | zero =>
    exact ⟨fun h => absurd h (lt_irrefl 0), fun _ => rfl, fun j hj => absurd hj (Nat.not_lt_zero j),
      fun i hi => absurd hi (Nat.succ_ne_zero i).symm⟩
  | succ m ih =>
    obtain ⟨h1, h2, h3, -⟩ := ih (by omega)
    set L := loop (Dirk.stageU T dt semi R root) m s with hL
    have hst : loop (Dirk.stageU T dt semi R root) (m + 1) s = Dirk.stageU T dt semi R root m L := rfl
    rw [hst]
    have hold : (if m = 0 then L.sol else L.old) = s.sol := by
      by_cases h0 : m = 0
      · rw [if_pos h0, h2 h0]
      · rw [if_neg h0, h1 (Nat.pos_of_ne_zero h0)]
    have hk : ∀ l < m, (Dirk.stageU T dt semi R root m L).k l = L.k l := by
      intro l hl
      simp only [Dirk.stageU]
      split
      · rw [Function.update_of_ne hl.ne]
      · rfl
    refine ⟨fun _ => ?_, fun h => absurd h (Nat.succ_ne_zero m), fun j hj hj' => ?_, fun i hi => ?_⟩
    · simp only [Dirk.stageU]; exact hold
    · rcases Nat.lt_succ_iff_lt_or_eq.1 hj with hj | rfl
      · rw [hk j hj]; exact h3 j hj hj'
      · refine ⟨_, ∑ l ∈ range j, (dt * T.a j l) • L.k l, rfl, ?_⟩
        simp only [Dirk.stageU, if_pos hj', Function.update_self, hold]
        rfl
    · obtain rfl : m = i := by omega
      have : ∑ j ∈ range m, (dt * T.a m j) • (Dirk.stageU T dt semi R root m L).k j
          = ∑ j ∈ range m, (dt * T.a m j) • L.k j :=
        sum_congr rfl fun j hj => by rw [hk j (mem_range.1 hj)]
      rw [this]
      simp only [Dirk.stageU, hold]
      rfl

/-- A run of `DIRKGenericUForm`. -/
def Dirk.runU (T : Tableau) (dt : ℝ) (semi : Bool) (R : ℕ → ℕ → V → V → V) (root : (V → V) → V) : ℕ → Dirk V → Dirk V
  | 0, s => s
  | m + 1, s => (Dirk.runU T dt semi R root m s).advanceU T dt semi (R m) root

/-- C123, solution form of stiffly accurate schemes: solvers that leave nothing of the total of the stage equations. -/
theorem C123_uform (tot : V →ₗ[ℝ] ℝ) (T : Tableau) (hn : 0 < T.n) (hstiff : ∀ j < T.n, T.a (T.n - 1) j = T.b j)
    (hdiag : ∀ i < T.n, T.a i i ≠ 0) (dt : ℝ) (hdt : dt ≠ 0) (semi : Bool) (R : ℕ → ℕ → V → V → V) (root : (V → V) → V)
    (hroot : ∀ m, ∀ i < T.n, ∀ old w,
      tot (stageEqU T dt semi (R m) i old w (root (stageEqU T dt semi (R m) i old w))) = 0)
    (hk : ∀ i < T.n, ∀ d w, tot (tendencyEqU T dt i d w (root (tendencyEqU T dt i d w))) = 0) (s : Dirk V) :
    Accounts tot T.n T.b dt R 0 fun m => (Dirk.runU T dt semi R root m s).sol := by
  refine accounts_of _ _ _ _ _ _ _ fun m => ?_
  set A := Dirk.runU T dt semi R root m s
  obtain ⟨-, -, h3, h4⟩ := uform_weak T dt semi (R m) root A T.n le_rfl
  set L := loop (Dirk.stageU T dt semi (R m) root) T.n A with hL
  have hs : Dirk.runU T dt semi R root (m + 1) s = L := rfl
  have h4 := h4 (T.n - 1) (by omega)
  -- totals of the stored tendencies
  have key : ∀ j < T.n - 1, ∃ u, tot (L.k j) = tot (R m j u (if semi then A.sol else u)) := by
    intro j hj
    obtain ⟨u, w, hu, hkj⟩ := h3 j (by omega) hj
    have e1 := hroot m j (by omega) A.sol w
    have e2 := hk j (by omega) (u - A.sol) w
    rw [← hu] at e1
    rw [← hkj] at e2
    refine ⟨u, ?_⟩
    simp only [stageEqU, tendencyEqU, map_sub, map_add, map_smul, smul_eq_mul] at e1 e2
    have h0 : dt * T.a j j ≠ 0 := mul_ne_zero hdt (hdiag j (by omega))
    apply mul_left_cancel₀ h0
    linarith
  choose! U hU using key
  refine ⟨fun j => if j < T.n - 1 then U j else L.sol,
    fun j => if j < T.n - 1 then (if semi then A.sol else U j) else (if semi then A.sol else L.sol), ?_⟩
  rw [hs, abs_nonpos_iff]
  have e := hroot m (T.n - 1) (by omega) A.sol (∑ j ∈ range (T.n - 1), (dt * T.a (T.n - 1) j) • L.k j)
  rw [← h4] at e
  simp only [stageEqU, map_sub, map_add, map_smul, map_sum, smul_eq_mul] at e
  have hr : range T.n = range (T.n - 1 + 1) := by congr 1; omega
  rw [hr, sum_range_succ]
  beta_reduce
  rw [if_neg (lt_irrefl _), if_neg (lt_irrefl _), ← hstiff (T.n - 1) (by omega)]
  have : ∑ j ∈ range (T.n - 1), T.b j * tot (R m j (if j < T.n - 1 then U j else L.sol)
      (if j < T.n - 1 then (if semi then A.sol else U j) else (if semi then A.sol else L.sol)))
      = ∑ j ∈ range (T.n - 1), T.a (T.n - 1) j * tot (L.k j) := by
    refine sum_congr rfl fun j hj => ?_
    have hj := mem_range.1 hj
    rw [if_pos hj, if_pos hj, ← hstiff j (by omega), hU j hj]
  rw [this, mul_add, mul_sum]
  simp only [mul_assoc] at e ⊢
  linarith

/-! ### Implicit-explicit schemes -/

theorem imex_weak (TE TI : Tableau) (dt : ℝ) (semi : Bool) (FE : ℕ → V → V) (FI : ℕ → V → V → V) (root : (V → V) → V)
    (s : Imex V) (m : ℕ) :
    (loop (Imex.stage TE TI dt semi FE FI root) m s).erkOld = s.erkOld ∧
    ∀ j < m, (∃ u, (loop (Imex.stage TE TI dt semi FE FI root) m s).ke j = dt • FE j u) ∧
      ∃ w v, (loop (Imex.stage TE TI dt semi FE FI root) m s).kd j = root (stageEq TI dt FI j w v) := by
  induction m with
  | zero => exact ⟨rfl, fun j hj => absurd hj (Nat.not_lt_zero j)⟩
  | succ m ih =>
    obtain ⟨h1, h2⟩ := ih
    set L := loop (Imex.stage TE TI dt semi FE FI root) m s with hL
    have hst : loop (Imex.stage TE TI dt semi FE FI root) (m + 1) s = Imex.stage TE TI dt semi FE FI root m L := rfl
    rw [hst]
    refine ⟨?_, fun j hj => ?_⟩
    · rw [← h1]
      simp [Imex.stage, Imex.putErk, Imex.putDirk, Imex.erk, Imex.dirk, Erk.solveTendency, Erk.updateSolution,
        Dirk.solveTendency, Dirk.updateSolution]
    · rcases Nat.lt_succ_iff_lt_or_eq.1 hj with hj | rfl
      · obtain ⟨⟨u, hu⟩, w, v, h⟩ := h2 j hj
        refine ⟨⟨u, ?_⟩, w, v, ?_⟩
        · rw [← hu]
          simp [Imex.stage, Imex.putErk, Imex.putDirk, Imex.erk, Imex.dirk, Erk.solveTendency, Erk.updateSolution,
            Dirk.solveTendency, Dirk.updateSolution, Function.update_of_ne hj.ne]
        · rw [← h]
          simp [Imex.stage, Imex.putErk, Imex.putDirk, Imex.erk, Imex.dirk, Erk.solveTendency, Erk.updateSolution,
            Dirk.solveTendency, Dirk.updateSolution, Function.update_of_ne hj.ne]
      · set E := (if 0 < j then L.erkOld + ∑ l ∈ range j, TE.a j l • L.ke l else L.erkOld) with hE
        refine ⟨⟨(Imex.stage TE TI dt semi FE FI root j L).sol, ?_⟩, E + ∑ l ∈ range j, (TI.a j l * dt) • L.kd l, E, ?_⟩
        · simp only [Imex.stage, Imex.putErk, Imex.putDirk, Imex.erk, Imex.dirk, Erk.solveTendency, Erk.updateSolution,
            Dirk.solveTendency, Dirk.updateSolution, Function.update_self]
        · simp only [Imex.stage, Imex.putErk, Imex.putDirk, Imex.erk, Imex.dirk, Erk.solveTendency, Erk.updateSolution,
            Dirk.solveTendency, Dirk.updateSolution, Function.update_self, ← hE, ite_self]
          rfl

/-- A run of `IMEXGeneric`. -/
def Imex.run (TE TI : Tableau) (dt : ℝ) (semi : Bool) (FE : ℕ → ℕ → V → V) (FI : ℕ → ℕ → V → V → V) (root : (V → V) → V) :
    ℕ → Imex V → Imex V
  | 0, s => s
  | m + 1, s => (Imex.run TE TI dt semi FE FI root m s).advance TE TI dt semi (FE m) (FI m) root

/-- C123, implicit-explicit schemes with the same weights in both parts: the two right-hand sides together. -/
theorem C123_imex (tot : V →ₗ[ℝ] ℝ) (TE TI : Tableau) (hn : TE.n = TI.n) (hb : ∀ j < TI.n, TE.b j = TI.b j) (dt : ℝ)
    (semi : Bool) (FE : ℕ → ℕ → V → V) (FI : ℕ → ℕ → V → V → V) (root : (V → V) → V) (tol : ℝ)
    (hroot : ∀ m, ∀ i < TI.n, ∀ w v, |tot (stageEq TI dt (FI m) i w v (root (stageEq TI dt (FI m) i w v)))| ≤ tol)
    (gE gI : ℕ → ℕ → ℝ) (hE : ∀ m, ∀ j < TI.n, ∀ v, tot (FE m j v) = gE m j)
    (hI : ∀ m, ∀ j < TI.n, ∀ v w, tot (FI m j v w) = gI m j) (s : Imex V) (N : ℕ) :
    |tot (Imex.run TE TI dt semi FE FI root N s.initialize).sol - tot s.sol
      - dt * ∑ m ∈ range N, ∑ j ∈ range TI.n, TI.b j * (gE m j + gI m j)|
      ≤ N * (|dt| * (∑ j ∈ range TI.n, |TI.b j|) * tol) := by
  have hinv : ∀ m, (Imex.run TE TI dt semi FE FI root m s.initialize).erkOld
      = (Imex.run TE TI dt semi FE FI root m s.initialize).sol := by
    intro m
    cases m with
    | zero => rfl
    | succ m => rfl
  induction N with
  | zero => simp [Imex.run, Imex.initialize]
  | succ N ih =>
    set A := Imex.run TE TI dt semi FE FI root N s.initialize with hA
    obtain ⟨h1, h2⟩ := imex_weak TE TI dt semi (FE N) (FI N) root A TE.n
    set L := loop (Imex.stage TE TI dt semi (FE N) (FI N) root) TE.n A with hL
    have hs : (Imex.run TE TI dt semi FE FI root (N + 1) s.initialize).sol
        = A.sol + ∑ j ∈ range TE.n, TE.b j • L.ke j + ∑ j ∈ range TI.n, (dt * TI.b j) • L.kd j := by
      rw [← hinv N, ← h1]; rfl
    have e1 : tot (∑ j ∈ range TE.n, TE.b j • L.ke j) = dt * ∑ j ∈ range TI.n, TI.b j * gE N j := by
      rw [hn, map_sum, mul_sum]
      refine sum_congr rfl fun j hj => ?_
      obtain ⟨u, hu⟩ := (h2 j (by rw [hn]; exact mem_range.1 hj)).1
      rw [hu, hb j (mem_range.1 hj), map_smul, map_smul, hE N j (mem_range.1 hj), smul_eq_mul, smul_eq_mul]
      ring
    have e2 : tot (∑ j ∈ range TI.n, (dt * TI.b j) • L.kd j) = dt * ∑ j ∈ range TI.n, TI.b j * tot (L.kd j) := by
      simp only [map_sum, map_smul, smul_eq_mul, mul_sum, mul_assoc]
    have e3 := weighted_error TI.n TI.b (fun j => tot (L.kd j)) (fun j => gI N j) dt tol (by
      intro j hj
      obtain ⟨w, v, hk⟩ := (h2 j (by omega)).2
      have := hroot N j hj w v
      rw [← hk] at this
      rw [tot_stage tot TI dt (FI N) j w v (L.kd j), hI N j hj, sub_sub_cancel_left, abs_neg]
      exact this)
    rw [hs, map_add, map_add, e1, e2, sum_range_succ]
    have e4 : ∑ j ∈ range TI.n, TI.b j * (gE N j + gI N j)
        = ∑ j ∈ range TI.n, TI.b j * gE N j + ∑ j ∈ range TI.n, TI.b j * gI N j := by
      simp only [mul_add, sum_add_distrib]
    rw [e4, mul_add, mul_add]
    push_cast
    rw [abs_le] at *
    constructor <;> linarith [e3.1, e3.2, ih.1, ih.2]

/-! ### Two-level schemes -/

/-- C123, the theta scheme: rates that depend on the forcings are added by the theta rule, up to what the solver leaves. -/
theorem C123_theta (tot : V →ₗ[ℝ] ℝ) (θ dt : ℝ) (semi : Bool) (R : V → V → P → V) (root : (V → V) → V) (tol : ℝ)
    (hroot : ∀ q q' old, |tot (thetaForm θ dt semi R q q' old (root (thetaForm θ dt semi R q q' old)))| ≤ tol)
    (g : P → ℝ) (hg : ∀ u v q, tot (R u v q) = g q) (p : ℕ → P) (s : TwoLevel V P) (hp : s.fieldsOld = p 0) (N : ℕ) :
    |tot (TwoLevel.run θ dt semi R root (fun m => p (m + 1)) N s).sol - tot s.sol
      - dt * ∑ m ∈ range N, (θ * g (p (m + 1)) + (1 - θ) * g (p m))| ≤ N * tol := by
  have hinv : ∀ m, (TwoLevel.run θ dt semi R root (fun m => p (m + 1)) m s).fieldsOld = p m := by
    intro m
    cases m with
    | zero => exact hp
    | succ m => rfl
  induction N with
  | zero => simp [TwoLevel.run]
  | succ N ih =>
    set A := TwoLevel.run θ dt semi R root (fun m => p (m + 1)) N s with hA
    have hs : (TwoLevel.run θ dt semi R root (fun m => p (m + 1)) (N + 1) s).sol
        = root (thetaForm θ dt semi R (p (N + 1)) (p N) A.sol) := by
      rw [← hinv N]; rfl
    have h := hroot (p (N + 1)) (p N) A.sol
    rw [← hs] at h
    set B := (TwoLevel.run θ dt semi R root (fun m => p (m + 1)) (N + 1) s).sol
    have e : tot (thetaForm θ dt semi R (p (N + 1)) (p N) A.sol B)
        = tot B - tot A.sol - dt * (θ * g (p (N + 1)) + (1 - θ) * g (p N)) := by
      simp only [thetaForm, map_sub, map_add, map_smul, smul_eq_mul, hg]
    rw [e] at h
    rw [sum_range_succ, mul_add]
    push_cast
    rw [abs_le] at *
    constructor <;> linarith [h.1, h.2, ih.1, ih.2]

/-- C123, Picard iterations of coupled 2D equations: the same for the whole loop. -/
theorem C123_picard (tot : V →ₗ[ℝ] ℝ) (θ dt : ℝ) (semi : Bool) (R : V → V → P → V) (root : (V → V) → V) (tol : ℝ)
    (hroot : ∀ q q' old, |tot (thetaForm θ dt semi R q q' old (root (thetaForm θ dt semi R q q' old)))| ≤ tol)
    (g : P → ℝ) (hg : ∀ u v q, tot (R u v q) = g q) (p : ℕ → P) (s : TwoLevel V P) (n : ℕ) :
    |tot (s.picardLoop θ dt semi R root p (n + 1)).sol - tot s.sol - dt * (θ * g (p n) + (1 - θ) * g s.fieldsOld)| ≤ tol := by
  have h := C123_theta tot θ dt semi R root tol hroot g hg (fun m => if m = 0 then s.fieldsOld else p n) s rfl 1
  rw [C25_picard]
  simpa [TwoLevel.run] using h

/-- C123, forward Euler: rates at the start of each step. -/
theorem C123_euler (tot : V →ₗ[ℝ] ℝ) (dt : ℝ) (R : V → V → P → V) (g : P → ℝ) (hg : ∀ u v q, tot (R u v q) = g q)
    (p : ℕ → P) (s : TwoLevel V P) (hp : s.fieldsOld = p 0) (N : ℕ) :
    tot (TwoLevel.runEuler dt R (fun m => p (m + 1)) N s).sol = tot s.sol + dt * ∑ m ∈ range N, g (p m) := by
  have hinv : ∀ m, (TwoLevel.runEuler dt R (fun m => p (m + 1)) m s).fieldsOld = p m := by
    intro m
    cases m with
    | zero => exact hp
    | succ m => rfl
  induction N with
  | zero => simp [TwoLevel.runEuler]
  | succ N ih =>
    have hs : (TwoLevel.runEuler dt R (fun m => p (m + 1)) (N + 1) s).sol
      = (TwoLevel.runEuler dt R (fun m => p (m + 1)) N s).sol + dt • R (TwoLevel.runEuler dt R (fun m => p (m + 1)) N s).sol
          (TwoLevel.runEuler dt R (fun m => p (m + 1)) N s).sol (p N) := by
      rw [← hinv N]; rfl
    rw [hs, map_add, map_smul, hg, ih, sum_range_succ, smul_eq_mul]
    ring

/-! ### Steady states -/

/-- C123: a state in which the explicit terms balance is kept by the explicit schemes, whatever their coefficients. -/
theorem C123_erk_steady (T : Tableau) (dt : ℝ) (F : ℕ → ℕ → V → V) (s : Erk V) (h : s.inited = false ∨ s.old = s.sol)
    (hF : ∀ m, ∀ i < T.n, F m i s.sol = 0) (N : ℕ) : (Erk.run T dt F N s).sol = s.sol := by
  induction N with
  | zero => rfl
  | succ N ih =>
    obtain ⟨K, h1, h2⟩ := C20_run T dt F s h N
    rw [ih] at h1 h2
    have hK : ∀ i, i < T.n → K i = 0 := by
      intro i
      induction i using Nat.strong_induction_on with
      | _ i hi =>
        intro hin
        rw [h1 i hin, sum_eq_zero fun j hj => by rw [hi j (mem_range.1 hj) (by have := mem_range.1 hj; omega), smul_zero],
          smul_zero, add_zero]
        exact hF N i hin
    rw [h2, sum_eq_zero fun j hj => by rw [hK j (mem_range.1 hj), smul_zero], smul_zero, add_zero]

/-- C123: the same for the Shu-Osher form. -/
theorem C123_shuosher_steady (T : Tableau) (hT : ∀ i < T.n, ∀ j < T.n, i ≤ j → T.a i j = 0) (hn : 0 < T.n)
    (htiny : NoTinyEntries T) (C : ShuOsher) (hC : toShuOsher T = some C) (dt : ℝ) (F : ℕ → ℕ → V → V) (s : Sho V)
    (hF : ∀ m, ∀ i < T.n, F m i s.sol = 0) (N : ℕ) : (Sho.run T.n C dt F N s).sol = s.sol := by
  induction N with
  | zero => rfl
  | succ N ih =>
    have h1 := C20_shuosher_is_textbook T hT hn htiny C hC dt (F N) (Sho.run T.n C dt F N s)
    have h2 := C123_erk_steady T dt F ⟨s.sol, s.sol, fun _ => 0, false⟩ (Or.inl rfl) hF
    have h3 := C20_run T dt F ⟨s.sol, s.sol, fun _ => 0, false⟩ (Or.inl rfl) N
    rw [h2, h2] at h3
    rw [ih] at h1
    exact butcherStep_unique h1 h3

/-- C123: a steady state is kept by the diagonally implicit schemes if the stage equations have one solution. -/
theorem C123_dirk_steady (T : Tableau) (hn : 0 < T.n) (dt : ℝ) (semi : Bool) (R : ℕ → ℕ → V → V → V) (root : (V → V) → V)
    (hroot : RootFinder root) (hs : ∀ m, StagesSolvable T dt (R m)) (s : Dirk V)
    (hR : ∀ m, ∀ i < T.n, R m i s.sol s.sol = 0) (N : ℕ) : (Dirk.run T dt semi R root N s).sol = s.sol := by
  induction N with
  | zero => rfl
  | succ N ih =>
    obtain ⟨K, h1, h2⟩ := dirk_spec T hn dt semi (R N) root hroot (hs N) (Dirk.run T dt semi R root N s)
    rw [ih] at h1 h2
    have hK : ∀ i, i < T.n → K i = 0 := by
      intro i
      induction i using Nat.strong_induction_on with
      | _ i hi =>
        intro hin
        have z : ∀ c : ℕ → ℝ, ∑ j ∈ range i, c j • K j = 0 := fun c => sum_eq_zero fun j hj => by
          rw [hi j (mem_range.1 hj) (by have := mem_range.1 hj; omega), smul_zero]
        have hv : (if semi then s.sol else dirkStart T dt s.sol K i) = s.sol := by
          split
          · rfl
          · unfold dirkStart
            split
            · rfl
            · rw [z, add_zero]
        have e := h1 i hin
        rw [hv, sum_range_succ, z, zero_add, mul_comm] at e
        refine (hs N i hin s.sol s.sol).unique ?_ ?_
        · show -K i + R N i (s.sol + (T.a i i * dt) • K i) s.sol = 0
          rw [← e]; simp
        · simp [hR N i hin]
    show ((Dirk.run T dt semi R root N s).advance T dt semi (R N) root).sol = s.sol
    rw [h2, sum_eq_zero fun j hj => by rw [hK j (mem_range.1 hj), smul_zero], add_zero]

/-- C123: and by forward Euler. -/
theorem C123_euler_steady (dt : ℝ) (R : V → V → P → V) (p : ℕ → P) (s : TwoLevel V P) (h0 : R s.sol s.sol s.fieldsOld = 0)
    (h : ∀ m, R s.sol s.sol (p m) = 0) (N : ℕ) : (TwoLevel.runEuler dt R p N s).sol = s.sol := by
  induction N with
  | zero => rfl
  | succ N ih =>
    have hf : R s.sol s.sol (TwoLevel.runEuler dt R p N s).fieldsOld = 0 := by
      cases N with
      | zero => exact h0
      | succ N => exact h N
    show (TwoLevel.runEuler dt R p N s).sol + dt • _ = s.sol
    rw [ih, hf, smul_zero, add_zero]

end

/-! ### Examples -/

/-- Exchange between two boxes: the total of both stays, with any of the explicit schemes. -/
example (T : Tableau) (dt : ℝ) (u : ℝ × ℝ) (N : ℕ) :
    (Erk.run T dt (fun _ _ v => (v.2 - v.1, v.1 - v.2)) N ⟨u, u, fun _ => 0, false⟩).sol.1
      + (Erk.run T dt (fun _ _ v => (v.2 - v.1, v.1 - v.2)) N ⟨u, u, fun _ => 0, false⟩).sol.2 = u.1 + u.2 := by
  have h := (C123_erk (LinearMap.fst ℝ ℝ ℝ + LinearMap.snd ℝ ℝ ℝ) T dt (fun _ _ v => (v.2 - v.1, v.1 - v.2))
    ⟨u, u, fun _ => 0, false⟩ (Or.inl rfl)).1 (fun _ _ => 0) (fun _ _ _ v _ => by simp) N
  simp only [mul_zero, sum_const_zero, sub_zero, abs_nonpos_iff] at h
  exact sub_eq_zero.1 h

/-- A source of rate `r` with backward Euler: the hypothesis on the solver holds with `tol = 0`. -/
example (r dt : ℝ) (root : (ℝ → ℝ) → ℝ) (hroot : RootFinder root) (s : Dirk ℝ) (N : ℕ) :
    (Dirk.run backwardEuler dt false (fun _ _ _ _ => r) root N s).sol = s.sol + N * (dt * r) := by
  have h := (C123_dirk LinearMap.id backwardEuler (by simp [backwardEuler, mk]) dt false (fun _ _ _ _ => r) root 0 (by
    intro m i _ w v
    have : ∃! k : ℝ, stageEq backwardEuler dt (fun _ _ _ => r) i w v k = 0 :=
      ⟨r, by simp [stageEq], fun y hy => by simp only [stageEq] at hy; linarith⟩
    rw [hroot _ this]; simp) s).1 (fun _ _ => r) (fun _ _ _ _ _ => rfl) N
  have h1 : ∑ j ∈ range backwardEuler.n, backwardEuler.b j * r = r := by
    simp [backwardEuler, mk, vec]
  rw [h1] at h
  simp only [sum_const, card_range, nsmul_eq_mul, mul_zero, abs_nonpos_iff, LinearMap.id_apply] at h
  simp only [Dirk.run] at h
  linarith

/-! ### Weights -/

/-- C123: the weights of all shipped tableaux have the sum one, so a constant rate is added in full. -/
theorem C123_weights : ∀ T ∈ [forwardEuler, backwardEuler, implicitMidpoint, crankNicolson, dirk22, dirk23, dirk33, dirk43,
    dirkLSPUM2, dirkLPUM2, ssprk33, erkLSPUM2, erkLPUM2, erkMidpoint, esdirkMidpoint, esdirkTrapezoid],
    ∑ j ∈ range T.n, T.b j = 1 := by
  intro T hT
  simp only [List.mem_cons, List.not_mem_nil, or_false] at hT
  rcases hT with rfl | rfl | rfl | rfl | rfl | rfl | rfl | rfl | rfl | rfl | rfl | rfl | rfl | rfl | rfl | rfl <;>
    simp only [forwardEuler, backwardEuler, implicitMidpoint, crankNicolson, dirk22, dirk23, dirk33, dirk43, dirkLSPUM2,
      dirkLPUM2, ssprk33, erkLSPUM2, erkLPUM2, erkMidpoint, esdirkMidpoint, esdirkTrapezoid, mk, vec, sum_range_succ,
      range_zero, sum_empty, List.length_cons, List.length_nil, List.getD_cons_zero, List.getD_cons_succ,
      b33₁, b33₂] <;> ring

/-- C123: except for `DIRK33` and `DIRK43` the weights are not negative, so a source cannot remove anything. -/
theorem C123_signs : ∀ T ∈ [forwardEuler, backwardEuler, implicitMidpoint, crankNicolson, dirk22, dirk23,
    dirkLSPUM2, dirkLPUM2, ssprk33, erkLSPUM2, erkLPUM2, erkMidpoint, esdirkMidpoint, esdirkTrapezoid],
    ∀ j < T.n, 0 ≤ T.b j := by
  intro T hT j hj
  have h22 := γ22_bounds
  simp only [List.mem_cons, List.not_mem_nil, or_false] at hT
  rcases hT with rfl | rfl | rfl | rfl | rfl | rfl | rfl | rfl | rfl | rfl | rfl | rfl | rfl | rfl <;>
    simp only [forwardEuler, backwardEuler, implicitMidpoint, crankNicolson, dirk22, dirk23, dirkLSPUM2,
      dirkLPUM2, ssprk33, erkLSPUM2, erkLPUM2, erkMidpoint, esdirkMidpoint, esdirkTrapezoid, mk, List.length_cons,
      List.length_nil] at hj <;>
    interval_cases j <;>
    simp only [forwardEuler, backwardEuler, implicitMidpoint, crankNicolson, dirk22, dirk23, dirkLSPUM2,
      dirkLPUM2, ssprk33, erkLSPUM2, erkLPUM2, erkMidpoint, esdirkMidpoint, esdirkTrapezoid, mk, vec,
      List.getD_cons_zero, List.getD_cons_succ] <;> first | norm_num; done | linarith

/-- C123 is not to be had for `DIRK33` and `DIRK43` with the bounds of the rates: a source that is on during the second stage
only lowers the total. -/
theorem C123_negative_violated (T : Tableau) (hT : T = dirk33 ∨ T = dirk43) (dt : ℝ) (hdt : 0 < dt) (semi : Bool)
    (root : (ℝ → ℝ) → ℝ) (hroot : RootFinder root) (s : Dirk ℝ) :
    (s.advance T dt semi (fun i _ _ => if i = 1 then 1 else 0) root).sol < s.sol := by
  have hb : 1 < T.n ∧ T.b 1 < 0 := by
    rcases hT with rfl | rfl
    · refine ⟨by simp [dirk33, mk], ?_⟩
      simp only [dirk33, mk, vec, List.getD_cons_zero, List.getD_cons_succ, b33₂, γ33]
      norm_num
    · refine ⟨by simp [dirk43, mk], ?_⟩
      simp only [dirk43, mk, vec, List.getD_cons_zero, List.getD_cons_succ]
      norm_num
  obtain ⟨K, h1, h2⟩ := dirk_spec T (by omega) dt semi (fun i _ _ => if i = 1 then (1 : ℝ) else 0) root hroot (by
    intro i _ w v
    exact ⟨if i = 1 then 1 else 0, by simp, fun y hy => by linarith [hy]⟩) s
  rw [h2]
  have : ∑ j ∈ range T.n, (dt * T.b j) • K j = dt * T.b 1 := by
    rw [sum_eq_single 1]
    · rw [h1 1 hb.1]; simp
    · intro j hj h; rw [h1 j (mem_range.1 hj)]; simp [h]
    · intro h; exact absurd (mem_range.2 hb.1) h
  rw [this]
  have := mul_neg_of_pos_of_neg hdt hb.2
  linarith

end Verif.RK
