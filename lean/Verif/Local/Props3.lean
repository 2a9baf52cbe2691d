import Verif.Local.Props
import Verif.Local.Props2
import Verif.Explicit.Model
import Verif.Contract.Lemmas

/-!
C144: the domain of dependence of explicit runs.
-/

namespace Verif.Local

open Finset Verif.Dg Verif.Contract Verif.Explicit

section Runs

variable {V : Type*} [AddCommGroup V] [Module ℝ V] {κ : Type*}

/-- An equation on a mesh of discontinuous elements: `Z k` are the functions that vanish in the cell `k`, and `nb k` the cells next
to it.  The residual against a test function of one cell depends on this cell and its neighbours; the mass matrix does not couple
cells, and it is definite in every cell. -/
structure LocalEqn (E : Eqn V) (H : Submodule ℝ V) (Z : κ → Submodule ℝ V) (nb : κ → Set κ) : Prop where
  self : ∀ k, k ∈ nb k
  res : ∀ k u v w, w ∈ H → (∀ j, j ≠ k → w ∈ Z j) → (∀ j ∈ nb k, u - v ∈ Z j) → E.res u u w = E.res v v w
  mass_sub : ∀ u v w, E.mass (u - v) w = E.mass u w - E.mass v w
  mass_cell : ∀ k u w, (∀ j, j ≠ k → w ∈ Z j) → u ∈ Z k → E.mass u w = 0
  definite : ∀ k u, u ∈ H → (∀ w ∈ H, (∀ j, j ≠ k → w ∈ Z j) → E.mass u w = 0) → u ∈ Z k

variable {E : Eqn V} {H : Submodule ℝ V} {Z : κ → Submodule ℝ V} {nb : κ → Set κ}

theorem mem_ball_self (L : LocalEqn E H Z nb) (n : ℕ) (k : κ) : k ∈ ball nb n k := by
  induction n with
  | zero => exact rfl
  | succ n ih => exact ⟨k, L.self k, ih⟩

theorem ball_mono (L : LocalEqn E H Z nb) {n l : ℕ} (h : l < n) {j : κ} (x : κ) (hx : x ∈ ball nb (l + 1) j) : x ∈ ball nb n j := by
  obtain ⟨r, rfl⟩ : ∃ r, n = r + (l + 1) := ⟨n - (l + 1), by omega⟩
  clear h
  induction r with
  | zero => rwa [Nat.zero_add]
  | succ r ih =>
    rw [show r + 1 + (l + 1) = (r + (l + 1)) + 1 by omega]
    exact ⟨j, L.self j, ih⟩

/-- C144: the tendency in a cell depends on this cell and its neighbours. -/
theorem C144_tendency (L : LocalEqn E H Z nb) {dt : ℝ} {u v p q : V} (hp : Tendency E dt H u p) (hq : Tendency E dt H v q) {k : κ}
    (h : ∀ j ∈ nb k, u - v ∈ Z j) : p - q ∈ Z k := by
  refine L.definite k _ (H.sub_mem hp.1 hq.1) fun w hw hk => ?_
  rw [L.mass_sub, hp.2 w hw, hq.2 w hw, L.res k u v w hw hk h, sub_self]

/-- If the initial functions are the same in the cells at most `i` facets from `k`, the tendencies of the stages before `i` are the
same in `k`, for a method that computes stages from the tendencies before them. -/
theorem stage_same (L : LocalEqn E H Z nb) {T : RK.Tableau} {dt : ℝ} {u v : V} {p q : ℕ → V}
    (hp : ∀ i < T.n, Tendency E dt H (stage T u p i) (p i)) (hq : ∀ i < T.n, Tendency E dt H (stage T v q i) (q i)) (i : ℕ) (hi : i < T.n) :
    ∀ k, (∀ j ∈ ball nb (i + 1) k, u - v ∈ Z j) → p i - q i ∈ Z k := by
  induction i using Nat.strong_induction_on with
  | _ i ih =>
    intro k h
    refine C144_tendency L (hp i hi) (hq i hi) fun j hj => ?_
    have e : stage T u p i - stage T v q i = (u - v) + ∑ l ∈ range i, T.a i l • (p l - q l) := by
      simp only [stage, smul_sub, sum_sub_distrib]
      module
    rw [e]
    refine (Z j).add_mem (h j ⟨j, hj, mem_ball_self L i j⟩) ((Z j).sum_mem fun l hl => (Z j).smul_mem _ ?_)
    have hl : l < i := mem_range.1 hl
    refine ih l hl (hl.trans hi) j fun x hx => h x ⟨j, hj, ?_⟩
    exact ball_mono L hl x hx

/-- C144: after one step of an explicit Runge-Kutta method a cell depends on the cells that are at most as many facets away as the method
has stages. -/
theorem C144_erk (L : LocalEqn E H Z nb) {T : RK.Tableau} {dt : ℝ} {u v u' v' : V} (hu : ButcherStep E T dt H u u')
    (hv : ButcherStep E T dt H v v') {k : κ} (h : ∀ j ∈ ball nb T.n k, u - v ∈ Z j) : u' - v' ∈ Z k := by
  obtain ⟨p, hp, rfl⟩ := hu
  obtain ⟨q, hq, rfl⟩ := hv
  have e : u + ∑ j ∈ range T.n, T.b j • p j - (v + ∑ j ∈ range T.n, T.b j • q j) =
      (u - v) + ∑ l ∈ range T.n, T.b l • (p l - q l) := by
    simp only [smul_sub, sum_sub_distrib]
    module
  rw [e]
  refine (Z k).add_mem (h k (mem_ball_self L _ k)) ((Z k).sum_mem fun l hl => (Z k).smul_mem _ ?_)
  have hl : l < T.n := mem_range.1 hl
  exact stage_same L hp hq l hl k fun x hx => h x (ball_mono L hl x hx)

/-- C144: the same for the Shu-Osher form, which `SSPRK33` uses. -/
theorem C144_shuosher (L : LocalEqn E H Z nb) {C : RK.ShuOsher} {n : ℕ} {dt : ℝ} {u v u' v' : V} (hu : ShuOsherStep E C n dt H u u')
    (hv : ShuOsherStep E C n dt H v v') {k : κ} (h : ∀ j ∈ ball nb n k, u - v ∈ Z j) : u' - v' ∈ Z k := by
  obtain ⟨s, p, rfl, hp, rfl⟩ := hu
  obtain ⟨t, q, rfl, hq, rfl⟩ := hv
  have key : ∀ i ≤ n, ∀ k, (∀ j ∈ ball nb i k, s 0 - t 0 ∈ Z j) → s i - t i ∈ Z k := by
    intro i
    induction i using Nat.strong_induction_on with
    | _ i ih =>
      intro hi k h
      cases i with
      | zero => exact h k rfl
      | succ i =>
        have hin : i < n := hi
        rw [(hp i hin).2, (hq i hin).2]
        have e : C.β (i + 1) i • p i + ∑ j ∈ range (i + 1), C.α (i + 1) j • s j -
            (C.β (i + 1) i • q i + ∑ j ∈ range (i + 1), C.α (i + 1) j • t j) =
            C.β (i + 1) i • (p i - q i) + ∑ j ∈ range (i + 1), C.α (i + 1) j • (s j - t j) := by
          simp only [smul_sub, sum_sub_distrib]
          module
        rw [e]
        refine (Z k).add_mem ((Z k).smul_mem _ (C144_tendency L (hp i hin).1 (hq i hin).1 fun j hj => ?_))
          ((Z k).sum_mem fun l hl => (Z k).smul_mem _ ?_)
        · exact ih i (Nat.lt_succ_self i) hin.le j fun x hx => h x ⟨j, hj, hx⟩
        · have hl : l < i + 1 := mem_range.1 hl
          refine ih l hl (by omega) k fun x hx => h x ?_
          exact ball_mono L hl x ⟨k, L.self k, hx⟩
  exact key n le_rfl k h

/-- C144: a step of `ForwardEuler`. -/
theorem C144_euler (L : LocalEqn E H Z nb) {dt : ℝ} {u v u' v' : V} (hu : EulerStep E dt H u u') (hv : EulerStep E dt H v v') {k : κ}
    (h : ∀ j ∈ nb k, u - v ∈ Z j) : u' - v' ∈ Z k := by
  refine L.definite k _ (H.sub_mem hu.1 hv.1) fun w hw hk => ?_
  have h0 := L.mass_cell k (u - v) w hk (h k (L.self k))
  rw [L.mass_sub] at h0 ⊢
  rw [hu.2 w hw, hv.2 w hw, L.res k u v w hw hk h]
  linarith

/-- C144: whole runs.  A cell depends on the initial values in the cells that are at most (steps times stages) facets away;
changes further away have no effect. -/
theorem C144_run {P : ℕ → V → V → Prop} {s : ℕ}
    (hstep : ∀ n u v u' v', P n u u' → P n v v' → ∀ k, (∀ j ∈ ball nb s k, u - v ∈ Z j) → u' - v' ∈ Z k) (u v : ℕ → V)
    (hu : ∀ n, P n (u n) (u (n + 1))) (hv : ∀ n, P n (v n) (v (n + 1))) (n : ℕ) :
    ∀ k, (∀ j ∈ ball nb (n * s) k, u 0 - v 0 ∈ Z j) → u n - v n ∈ Z k := by
  induction n with
  | zero =>
    intro k h
    exact h k (by rw [Nat.zero_mul]; exact rfl)
  | succ n ih =>
    intro k h
    refine hstep n _ _ _ _ (hu n) (hv n) k fun j hj => ih j fun x hx => h x ?_
    have hadd : ∀ (r : ℕ) (k j x : κ), j ∈ ball nb r k → ∀ t, x ∈ ball nb t j → x ∈ ball nb (t + r) k := by
      intro r
      induction r with
      | zero =>
        rintro k j x rfl t hx
        exact hx
      | succ r ih =>
        rintro k j x ⟨i, hi, hj⟩ t hx
        exact ⟨i, hi, ih i j x hj t hx⟩
    rw [Nat.add_one_mul]
    exact hadd s k j x hj (n * s) hx

end Runs

end Verif.Local
