import Mathlib.Tactic.Linarith
import Mathlib.Tactic.Ring
import Mathlib.Tactic.NormNum
import Verif.Layers.Model

namespace Verif.Layers

theorem store_get (ws : List (ℕ × Option ℚ)) (m : Mem) (a : ℕ) (x : Option ℚ)
    (hall : ∀ w ∈ ws, w.1 = a → w.2 = x) (hex : m a = x ∨ ∃ w ∈ ws, w.1 = a) : store m ws a = x := by
  induction ws generalizing m with
  | nil =>
    rcases hex with h | ⟨w, hw, _⟩
    · exact h
    · simp at hw
  | cons w ws ih =>
    change store (Function.update m w.1 w.2) ws a = x
    refine ih _ (fun w' hw' => hall w' (List.mem_cons_of_mem _ hw')) ?_
    by_cases hwa : w.1 = a
    · left
      rw [hwa, Function.update_self]
      exact hall w (List.mem_cons_self ..) hwa
    · rcases hex with h | ⟨w', hw', hw'a⟩
      · left
        rw [Function.update_of_ne (Ne.symm hwa)]
        exact h
      · right
        rcases List.mem_cons.1 hw' with rfl | hw'
        · exact absurd hw'a hwa
        · exact ⟨w', hw', hw'a⟩

/-- An address determines node and component. -/
theorem addr_inj {dim i c i' c' : ℕ} (hc : c < dim) (hc' : c' < dim)
    (h : dim * i + c = dim * i' + c') : i = i' ∧ c = c' := by
  have h1 : (dim * i + c) / dim = i := by
    rw [Nat.add_comm, Nat.add_mul_div_left _ _ (by omega), Nat.div_eq_of_lt hc, Nat.zero_add]
  have h2 : (dim * i' + c') / dim = i' := by
    rw [Nat.add_comm, Nat.add_mul_div_left _ _ (by omega), Nat.div_eq_of_lt hc', Nat.zero_add]
  have e : i = i' := by rw [← h1, ← h2, h]
  subst e
  exact ⟨rfl, by omega⟩

theorem gather_get (arity dim : ℕ) (map : ℕ → ℕ) (f : Dat) (i c : ℕ) (hi : i < arity) (hc : c < dim) :
    gather arity dim map f (dim * i + c) = f (map i) c := by
  unfold gather
  have hlt : dim * i + c < arity * dim := by
    have : (i + 1) * dim ≤ arity * dim := Nat.mul_le_mul_right _ hi
    have h2 : (i + 1) * dim = dim * i + dim := by ring
    omega
  have h1 : (dim * i + c) / dim = i := by
    rw [Nat.add_comm, Nat.add_mul_div_left _ _ (by omega), Nat.div_eq_of_lt hc, Nat.zero_add]
  have h2 : (dim * i + c) % dim = c := by
    rw [Nat.add_comm, Nat.add_mul_mod_self_left, Nat.mod_eq_of_lt hc]
  rw [if_pos hlt, h1, h2]

theorem expandKernel_get (n dim2 dim3 v : ℕ) (hle : dim2 ≤ dim3) (hv : 0 < v) (func func2d : Mem) (i c : ℕ)
    (hi : i < n * v) (hc : c < dim2) :
    expandKernel n dim2 dim3 v (facetMask v false) func func2d (dim3 * i + c)
      = func2d (dim2 * (i / v) + c) := by
  unfold expandKernel
  apply store_get
  · intro w hw hwa
    simp only [List.mem_flatMap, List.mem_map, List.mem_range] at hw
    obtain ⟨d, hd, c', hc', e, he, rfl⟩ := hw
    obtain ⟨h1, rfl⟩ := addr_inj (lt_of_lt_of_le hc' hle) (lt_of_lt_of_le hc hle) hwa
    simp only [facetMask] at h1
    have : i / v = d := by
      rw [← h1, if_neg (by simp), Nat.add_zero, Nat.add_comm, Nat.add_mul_div_right _ _ hv,
        Nat.div_eq_of_lt he, Nat.zero_add]
    rw [this]
  · right
    have hd : i / v < n := Nat.div_lt_of_lt_mul (by rw [Nat.mul_comm]; exact hi)
    refine ⟨(dim3 * (facetMask v false (i / v) + i % v) + c, func2d (dim2 * (i / v) + c)), ?_, ?_⟩
    · simp only [List.mem_flatMap, List.mem_map, List.mem_range]
      exact ⟨i / v, hd, c, hc, i % v, Nat.mod_lt _ hv, rfl⟩
    · have : i / v * v + i % v = i := by rw [Nat.mul_comm]; exact Nat.div_add_mod i v
      simp [facetMask, this]

/-- Further components of the 3D field are left as they were. -/
theorem expandKernel_rest (n dim2 dim3 v : ℕ) (hle : dim2 ≤ dim3) (func func2d : Mem) (i c : ℕ)
    (hc : dim2 ≤ c) (hc3 : c < dim3) :
    expandKernel n dim2 dim3 v (facetMask v false) func func2d (dim3 * i + c) = func (dim3 * i + c) := by
  unfold expandKernel
  apply store_get
  · intro w hw hwa
    simp only [List.mem_flatMap, List.mem_map, List.mem_range] at hw
    obtain ⟨d, hd, c', hc', e, he, rfl⟩ := hw
    have := (addr_inj (lt_of_lt_of_le hc' hle) hc3 hwa).2
    omega
  · exact Or.inl rfl

theorem extractKernel_get (n dim2 dim3 : ℕ) (idx : ℕ → ℕ) (func3d : Mem) (d c : ℕ) (hd : d < n)
    (hc : c < dim2) :
    extractKernel n dim2 dim3 idx fresh func3d (dim2 * d + c) = func3d (dim3 * idx d + c) := by
  unfold extractKernel
  apply store_get
  · intro w hw hwa
    simp only [List.mem_flatMap, List.mem_map, List.mem_range] at hw
    obtain ⟨d', hd', c', hc', rfl⟩ := hw
    obtain ⟨rfl, rfl⟩ := addr_inj hc' hc hwa
    rfl
  · right
    exact ⟨_, by
      simp only [List.mem_flatMap, List.mem_map, List.mem_range]
      exact ⟨d, hd, c, hc, rfl⟩, rfl⟩

theorem averageKernel_get (n dim2 dim3 : ℕ) (bot top : ℕ → ℕ) (func3d : Mem) (d c : ℕ) (hd : d < n)
    (hc : c < dim2) : averageKernel n dim2 dim3 bot top fresh func3d (dim2 * d + c) =
      mean2 (func3d (dim3 * bot d + c)) (func3d (dim3 * top d + c)) := by
  unfold averageKernel
  apply store_get
  · intro w hw hwa
    simp only [List.mem_flatMap, List.mem_map, List.mem_range] at hw
    obtain ⟨d', hd', c', hc', rfl⟩ := hw
    obtain ⟨rfl, rfl⟩ := addr_inj hc' hc hwa
    rfl
  · right
    exact ⟨_, by
      simp only [List.mem_flatMap, List.mem_map, List.mem_range]
      exact ⟨d, hd, c, hc, rfl⟩, rfl⟩

theorem scatter_get (arity dim : ℕ) (map : ℕ → ℕ) (loc : Mem) (g : Dat)
    (h : ∀ i c, i < arity → c < dim → loc (dim * i + c) = g (map i) c) (f : Dat) (x c : ℕ)
    (hx : f x c = g x c ∨ (c < dim ∧ ∃ i, i < arity ∧ map i = x)) :
    scatter arity dim map loc f x c = g x c := by
  have key : ∀ (js : List ℕ) (f : Dat), (∀ j ∈ js, j < arity * dim) →
      (f x c = g x c ∨ ∃ j ∈ js, map (j / dim) = x ∧ j % dim = c) →
      js.foldl (fun f j => Function.update f (map (j / dim))
        (Function.update (f (map (j / dim))) (j % dim) (loc j))) f x c = g x c := by
    intro js
    induction js with
    | nil =>
      intro f _ hx
      rcases hx with hx | ⟨j, hj, _⟩
      · exact hx
      · simp at hj
    | cons j js ih =>
      intro f hjs hx
      rw [List.foldl_cons]
      have hj := hjs j (List.mem_cons_self ..)
      have hp : 0 < dim := Nat.pos_of_ne_zero fun h0 => by simp [h0] at hj
      have hjd : j / dim < arity := Nat.div_lt_of_lt_mul (by rw [Nat.mul_comm]; exact hj)
      have hjm : j % dim < dim := Nat.mod_lt _ hp
      have hv : loc j = g (map (j / dim)) (j % dim) := by
        have := h (j / dim) (j % dim) hjd hjm
        rwa [Nat.div_add_mod] at this
      refine ih _ (fun j' hj' => hjs j' (List.mem_cons_of_mem _ hj')) ?_
      by_cases hxx : map (j / dim) = x
      · by_cases hcc : j % dim = c
        · left
          rw [hxx, Function.update_self, hcc, Function.update_self, hv, hxx, hcc]
        · rcases hx with hx | ⟨j', hj', hm⟩
          · left
            rw [hxx, Function.update_self, Function.update_of_ne (Ne.symm hcc), hx]
          · right
            rcases List.mem_cons.1 hj' with rfl | hj'
            · exact absurd hm.2 hcc
            · exact ⟨j', hj', hm⟩
      · rcases hx with hx | ⟨j', hj', hm⟩
        · left
          rw [Function.update_of_ne (Ne.symm hxx), hx]
        · right
          rcases List.mem_cons.1 hj' with rfl | hj'
          · exact absurd hm.1 hxx
          · exact ⟨j', hj', hm⟩
  refine key _ f (fun j hj => List.mem_range.1 hj) ?_
  rcases hx with hx | ⟨hc, i, hi, rfl⟩
  · exact Or.inl hx
  · right
    have h1 : (dim * i + c) / dim = i := by
      rw [Nat.add_comm, Nat.add_mul_div_left _ _ (by omega), Nat.div_eq_of_lt hc, Nat.zero_add]
    have h2 : (dim * i + c) % dim = c := by
      rw [Nat.add_comm, Nat.add_mul_mod_self_left, Nat.mod_eq_of_lt hc]
    refine ⟨dim * i + c, List.mem_range.2 ?_, by rw [h1], h2⟩
    have : (i + 1) * dim ≤ arity * dim := Nat.mul_le_mul_right _ hi
    have h2 : (i + 1) * dim = dim * i + dim := by ring
    omega

/-- A loop in which every cell writes the values of one field `g` leaves `g`, in any order. -/
theorem loop_value {κ : Type} {g : Dat} (arity dim : ℕ) (map : κ → ℕ → ℕ) (loc : κ → Mem)
    (cells : List κ)
    (h : ∀ k ∈ cells, ∀ i c, i < arity → c < dim → loc k (dim * i + c) = g (map k i) c)
    (out : Dat) (x c : ℕ) (k : κ) (hk : k ∈ cells) (i : ℕ) (hi : i < arity) (hc : c < dim)
    (hx : map k i = x) :
    cells.foldl (fun out k => scatter arity dim (map k) (loc k) out) out x c = g x c := by
  have key : ∀ (cells : List κ),
      (∀ k ∈ cells, ∀ i c, i < arity → c < dim → loc k (dim * i + c) = g (map k i) c) →
      ∀ out : Dat, (out x c = g x c ∨ ∃ k ∈ cells, map k i = x) →
      cells.foldl (fun out k => scatter arity dim (map k) (loc k) out) out x c = g x c := by
    intro cells
    induction cells with
    | nil =>
      intro _ out ho
      rcases ho with ho | ⟨k, hk, _⟩
      · exact ho
      · simp at hk
    | cons k cells ih =>
      intro h out ho
      rw [List.foldl_cons]
      refine ih (fun k' hk' => h k' (List.mem_cons_of_mem _ hk')) _ ?_
      rcases ho with ho | ⟨k', hk', hm⟩
      · left
        exact scatter_get arity dim (map k) (loc k) g (h k (List.mem_cons_self ..)) out x c (Or.inl ho)
      · rcases List.mem_cons.1 hk' with rfl | hk'
        · left
          exact scatter_get arity dim (map k') (loc k') g (h k' (List.mem_cons_self ..)) out x c
            (Or.inr ⟨hc, i, hi, hm⟩)
        · exact Or.inr ⟨k', hk', hm⟩
  exact key cells h out (Or.inr ⟨k, hk, hx⟩)

/-! ### Maxima and minima -/

theorem foldl_max_le (z : ℕ → ℚ) (l : List ℕ) (a : ℚ) :
    a ≤ l.foldl (fun a d => max (z d) a) a ∧ ∀ d ∈ l, z d ≤ l.foldl (fun a d => max (z d) a) a := by
  induction l generalizing a with
  | nil => exact ⟨le_refl _, fun d hd => by simp at hd⟩
  | cons e l ih =>
    obtain ⟨h1, h2⟩ := ih (max (z e) a)
    refine ⟨le_trans (le_max_right _ _) h1, fun d hd => ?_⟩
    rcases List.mem_cons.1 hd with rfl | hd
    · exact le_trans (le_max_left _ _) h1
    · exact h2 d hd

theorem foldl_min_le (z : ℕ → ℚ) (l : List ℕ) (a : ℚ) :
    l.foldl (fun a d => min (z d) a) a ≤ a ∧ ∀ d ∈ l, l.foldl (fun a d => min (z d) a) a ≤ z d := by
  induction l generalizing a with
  | nil => exact ⟨le_refl _, fun d hd => by simp at hd⟩
  | cons e l ih =>
    obtain ⟨h1, h2⟩ := ih (min (z e) a)
    refine ⟨le_trans h1 (min_le_right _ _), fun d hd => ?_⟩
    rcases List.mem_cons.1 hd with rfl | hd
    · exact le_trans h1 (min_le_left _ _)
    · exact h2 d hd

theorem foldl_max_mem (z : ℕ → ℚ) (l : List ℕ) (a : ℚ) :
    l.foldl (fun a d => max (z d) a) a = a ∨ ∃ d ∈ l, l.foldl (fun a d => max (z d) a) a = z d := by
  induction l generalizing a with
  | nil => exact Or.inl rfl
  | cons e l ih =>
    rw [List.foldl_cons]
    rcases ih (max (z e) a) with h | ⟨d, hd, h⟩
    · rcases max_choice (z e) a with h' | h'
      · exact Or.inr ⟨e, List.mem_cons_self .., h.trans h'⟩
      · exact Or.inl (h.trans h')
    · exact Or.inr ⟨d, List.mem_cons_of_mem _ hd, h⟩

theorem foldl_min_mem (z : ℕ → ℚ) (l : List ℕ) (a : ℚ) :
    l.foldl (fun a d => min (z d) a) a = a ∨ ∃ d ∈ l, l.foldl (fun a d => min (z d) a) a = z d := by
  induction l generalizing a with
  | nil => exact Or.inl rfl
  | cons e l ih =>
    rw [List.foldl_cons]
    rcases ih (min (z e) a) with h | ⟨d, hd, h⟩
    · rcases min_choice (z e) a with h' | h'
      · exact Or.inr ⟨e, List.mem_cons_self .., h.trans h'⟩
      · exact Or.inl (h.trans h')
    · exact Or.inr ⟨d, List.mem_cons_of_mem _ hd, h⟩

theorem le_foldMax (n : ℕ) (z : ℕ → ℚ) (d : ℕ) (hd : d < n) : z d ≤ foldMax n z :=
  (foldl_max_le z _ _).2 d (List.mem_range.2 hd)

theorem foldMin_le (n : ℕ) (z : ℕ → ℚ) (d : ℕ) (hd : d < n) : foldMin n z ≤ z d :=
  (foldl_min_le z _ _).2 d (List.mem_range.2 hd)

theorem foldMax_mem (n : ℕ) (hn : 0 < n) (z : ℕ → ℚ) (hz : ∀ d < n, |z d| < 10 ^ 20) :
    ∃ d, ∃ _ : d < n, foldMax n z = z d := by
  rcases foldl_max_mem z (List.range n) (-10 ^ 20) with h | ⟨d, hd, h⟩
  · have h0 := le_foldMax n z 0 hn
    have h1 := (abs_lt.1 (hz 0 hn)).1
    unfold foldMax at h0
    rw [h] at h0
    linarith
  · exact ⟨d, List.mem_range.1 hd, h⟩

theorem foldMin_mem (n : ℕ) (hn : 0 < n) (z : ℕ → ℚ) (hz : ∀ d < n, |z d| < 10 ^ 20) :
    ∃ d, ∃ _ : d < n, foldMin n z = z d := by
  rcases foldl_min_mem z (List.range n) (10 ^ 20) with h | ⟨d, hd, h⟩
  · have h0 := foldMin_le n z 0 hn
    have h1 := (abs_lt.1 (hz 0 hn)).2
    unfold foldMin at h0
    rw [h] at h0
    linarith
  · exact ⟨d, List.mem_range.1 hd, h⟩

/-- What the chosen kernel writes at node `d`. -/
theorem kernelOf_get' (m : Mesh) (dim2 dim3 : ℕ) (hle : dim2 ≤ dim3) (hv : 2 ≤ m.v) (map : ℕ → ℕ) (g : Dat)
    (F : Facet) (d c : ℕ) (hd : d < m.n) (hc : c < dim2) :
    kernelOf m dim2 dim3 F (gather (m.n * m.v) dim3 map g) (dim2 * d + c) =
      match F with
      | .bottom => g (map (d * m.v)) c
      | .top => g (map (d * m.v + 1)) c
      | .average => mean2 (g (map (d * m.v)) c) (g (map (d * m.v + 1)) c) := by
  have hlt : d * m.v + 1 < m.n * m.v := by
    have : (d + 1) * m.v ≤ m.n * m.v := Nat.mul_le_mul_right _ hd
    have h2 : (d + 1) * m.v = d * m.v + m.v := by ring
    omega
  have f0 : facetMask m.v false d = d * m.v := by simp [facetMask]
  have f1 : facetMask m.v true d = d * m.v + 1 := by simp [facetMask]
  cases F
  · refine (extractKernel_get m.n dim2 dim3 _ _ d c hd hc).trans ?_
    rw [f0]
    exact gather_get _ dim3 _ g _ c (by omega) (by omega)
  · refine (extractKernel_get m.n dim2 dim3 _ _ d c hd hc).trans ?_
    rw [f1]
    exact gather_get _ dim3 _ g _ c hlt (by omega)
  · refine (averageKernel_get m.n dim2 dim3 _ _ _ d c hd hc).trans ?_
    rw [f0, f1, gather_get _ dim3 _ g _ c (by omega) (by omega), gather_get _ dim3 _ g _ c hlt (by omega)]

end Verif.Layers
