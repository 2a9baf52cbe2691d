import Verif.Extrude.Model
import Mathlib.Tactic.Linarith
import Mathlib.Tactic.FieldSimp
import Mathlib.Tactic.Ring

/-!
Property C54.
-/

namespace Verif.Extrude

theorem layer_eq (n k : ℕ) (hn : 0 < n) (hk : k ≤ n) :
    layer n (1 - (k : ℝ) * (1 / n)) = if 2 * k ≤ n then n - k else n - k - 1 := by
  have hn' : (0 : ℝ) < n := by exact_mod_cast hn
  obtain ⟨j, rfl⟩ := Nat.exists_eq_add_of_le hk
  set n := k + j with hnn
  have hs : (1 - (k : ℝ) * (1 / n)) * (n + 1) - 1 = j - 1 + j / n := by
    have : (n : ℝ) = k + j := by rw [hnn]; push_cast; ring
    field_simp
    rw [this]; ring
  have hj0 : n - k = j := by omega
  have hjn : (j : ℝ) / n ≤ 1 := by
    rw [div_le_one hn']; exact_mod_cast (by omega : j ≤ n)
  have hj0' : 0 ≤ (j : ℝ) / n := by positivity
  unfold layer
  rw [hs, hj0]
  rcases Nat.eq_zero_or_pos j with h | h
  · have : ¬ (2 * k ≤ n) := by omega
    rw [if_neg this, h]
    have : cround (((0 : ℕ) : ℝ) - 1 + ((0 : ℕ) : ℝ) / n) = -1 := by
      unfold cround
      rw [if_neg (by norm_num)]
      norm_num
    rw [this]; rfl
  · have hj1 : (1 : ℝ) ≤ j := by exact_mod_cast h
    have hp : 0 ≤ (j : ℝ) - 1 + j / n := by linarith
    unfold cround
    rw [if_pos hp]
    by_cases h2 : 2 * k ≤ n
    · rw [if_pos h2]
      have hf : ⌊(j : ℝ) - 1 + j / n + 1 / 2⌋ = (j : ℤ) := by
        rw [Int.floor_eq_iff]
        have : (1 : ℝ) / 2 ≤ j / n := by
          rw [le_div_iff₀ hn']
          have : (n : ℝ) ≤ 2 * j := by exact_mod_cast (by omega : n ≤ 2 * j)
          linarith
        push_cast
        constructor <;> linarith
      rw [hf]
      have : j ≤ n := by omega
      omega
    · rw [if_neg h2]
      have hf : ⌊(j : ℝ) - 1 + j / n + 1 / 2⌋ = (j : ℤ) - 1 := by
        rw [Int.floor_eq_iff]
        have : (j : ℝ) / n < 1 / 2 := by
          rw [div_lt_iff₀ hn']
          have : (2 * j : ℝ) < n := by exact_mod_cast (by omega : 2 * j < n)
          linarith
        push_cast
        constructor <;> linarith
      rw [hf]
      omega

/-- C54: the number of nodes, and the horizontal position of each, is that of the flat mesh; too many
depth limits are refused. -/
theorem C54_shape (n : ℕ) (x y b s : ℝ) (md : List ℝ) :
    (md.length ≤ n + 1 → ∃ c, column n x y b s md = some c ∧ c.length = n + 1 ∧
      ∀ p ∈ c, p.1 = x ∧ p.2.1 = y) ∧
    (n + 1 < md.length → column n x y b s md = none) := by
  constructor
  · intro h
    refine ⟨_, by rw [column, minDepthArr, if_pos h]; rfl, by simp, ?_⟩
    intro p hp
    simp only [List.mem_map] at hp
    obtain ⟨k, -, rfl⟩ := hp
    exact ⟨rfl, rfl⟩
  · intro h
    rw [column, minDepthArr, if_neg (by omega)]; rfl

/-- The vertical coordinate of level `k` (from the bottom). -/
theorem column_z (n : ℕ) (x y b s : ℝ) (md : List ℝ) (c : List (ℝ × ℝ × ℝ)) (hn : 0 < n)
    (hc : column n x y b s md = some c) (k : ℕ) (hk : k ≤ n) :
    c[k]?.map (·.2.2) = some (max (-b * (((n - k : ℕ) : ℝ) / n) ^ s)
      (-md.getD (if 2 * k ≤ n then n - k else n - k - 1) 1e22)) := by
  have hn' : (0 : ℝ) < n := by exact_mod_cast hn
  unfold column minDepthArr at hc
  split at hc
  · simp only [Option.map_some, Option.some.injEq] at hc
    rw [← hc]
    rw [List.getElem?_map, List.getElem?_range (by omega)]
    simp only [Option.map_some, kernel, oldNode]
    rw [layer_eq n k hn hk]
    have : (1 : ℝ) - k * (1 / n) = ((n - k : ℕ) : ℝ) / n := by
      rw [Nat.cast_sub hk]; field_simp
    rw [this]
  · simp at hc

/-- C54: the highest node is at zero, for every positive stretch factor (and a first depth limit that
is not negative). -/
theorem C54_top (n : ℕ) (x y b s : ℝ) (md : List ℝ) (c : List (ℝ × ℝ × ℝ)) (hn : 0 < n) (hs : 0 < s)
    (h0 : 0 ≤ md.getD 0 1e22) (hc : column n x y b s md = some c) :
    c[n]?.map (·.2.2) = some 0 := by
  rw [column_z n x y b s md c hn hc n le_rfl]
  have h2 : ¬ 2 * n ≤ n := by omega
  rw [if_neg h2]
  simp only [Nat.sub_self, Nat.zero_sub, Nat.cast_zero, zero_div, Real.zero_rpow hs.ne', mul_zero]
  rw [max_eq_left (by linarith)]

/-- C54: the lowest node is at the bed, or at the last depth limit if the bed is deeper. -/
theorem C54_bottom (n : ℕ) (x y b s : ℝ) (md : List ℝ) (c : List (ℝ × ℝ × ℝ)) (hn : 0 < n)
    (hc : column n x y b s md = some c) :
    c[0]?.map (·.2.2) = some (-min b (md.getD n 1e22)) := by
  have hn' : (0 : ℝ) < n := by exact_mod_cast hn
  rw [column_z n x y b s md c hn hc 0 (by omega)]
  rw [if_pos (by omega), Nat.sub_zero, div_self hn'.ne', Real.one_rpow, mul_one, max_neg_neg]

/-- C54 without depth limits: the layers are strictly ordered, for every positive bathymetry (below
1e22) and every positive stretch factor, and the fraction of the depth at level `k` is the stretched
fraction of the flat mesh. -/
theorem C54_strict (n : ℕ) (x y b s : ℝ) (c : List (ℝ × ℝ × ℝ)) (hn : 0 < n) (hs : 0 < s)
    (hb : 0 < b) (hb' : b ≤ 1e22) (hc : column n x y b s [] = some c) :
    (∀ k, k ≤ n → c[k]?.map (·.2.2) = some (-b * (1 - (k : ℝ) / n) ^ s)) ∧
    ∀ k, k < n → ∃ z z', c[k]?.map (·.2.2) = some z ∧ c[k + 1]?.map (·.2.2) = some z' ∧ z < z' := by
  have hn' : (0 : ℝ) < n := by exact_mod_cast hn
  have hz : ∀ k, k ≤ n → c[k]?.map (·.2.2) = some (-b * (1 - (k : ℝ) / n) ^ s) := by
    intro k hk
    rw [column_z n x y b s [] c hn hc k hk]
    have he : ((n - k : ℕ) : ℝ) / n = 1 - (k : ℝ) / n := by
      rw [Nat.cast_sub hk]; field_simp
    have h1 : (k : ℝ) / n ≤ 1 := by rw [div_le_one hn']; exact_mod_cast hk
    have h2 : 0 ≤ (k : ℝ) / n := by positivity
    have h3 : (1 - (k : ℝ) / n) ^ s ≤ 1 := Real.rpow_le_one (by linarith) (by linarith) hs.le
    rw [he, List.getD_nil]
    rw [max_eq_left]
    nlinarith
  refine ⟨hz, fun k hk => ⟨_, _, hz k hk.le, hz (k + 1) hk, ?_⟩⟩
  have h1 : ((k + 1 : ℕ) : ℝ) / n ≤ 1 := by rw [div_le_one hn']; exact_mod_cast hk
  have h2 : (k : ℝ) / n < ((k + 1 : ℕ) : ℝ) / n := by
    rw [div_lt_div_iff_of_pos_right hn']; push_cast; linarith
  have h3 : (1 - ((k + 1 : ℕ) : ℝ) / n) ^ s < (1 - (k : ℝ) / n) ^ s :=
    Real.rpow_lt_rpow (by linarith) (by linarith) hs
  nlinarith

/-- C54 with depth limits that do not decrease: the layers are ordered, but not always strictly. -/
theorem C54_order_partial (n : ℕ) (x y b s : ℝ) (md : List ℝ) (c : List (ℝ × ℝ × ℝ)) (hn : 0 < n)
    (hs : 0 < s) (hb : 0 ≤ b) (hmd : ∀ i j, i ≤ j → j ≤ n → md.getD i 1e22 ≤ md.getD j 1e22)
    (hc : column n x y b s md = some c) (k : ℕ) (hk : k < n) :
    ∃ z z', c[k]?.map (·.2.2) = some z ∧ c[k + 1]?.map (·.2.2) = some z' ∧ z ≤ z' := by
  have hn' : (0 : ℝ) < n := by exact_mod_cast hn
  refine ⟨_, _, column_z n x y b s md c hn hc k hk.le, column_z n x y b s md c hn hc (k + 1) hk, ?_⟩
  apply max_le_max
  · have h2 : ((n - (k + 1) : ℕ) : ℝ) / n ≤ ((n - k : ℕ) : ℝ) / n := by
      rw [div_le_div_iff_of_pos_right hn']
      exact_mod_cast (by omega : n - (k + 1) ≤ n - k)
    have h3 : (((n - (k + 1) : ℕ) : ℝ) / n) ^ s ≤ (((n - k : ℕ) : ℝ) / n) ^ s :=
      Real.rpow_le_rpow (by positivity) h2 hs.le
    nlinarith
  · apply neg_le_neg
    apply hmd
    · split_ifs <;> omega
    · split_ifs <;> omega

/-- C54 with depth limits: where the limits of two neighbouring levels differ and do not decrease, or
where the lower level is not limited, the layer between them has positive thickness. -/
theorem C54_strict_partial (n : ℕ) (x y b s : ℝ) (md : List ℝ) (c : List (ℝ × ℝ × ℝ)) (hn : 0 < n)
    (hs : 0 < s) (hb : 0 < b) (hc : column n x y b s md = some c) (k : ℕ) (hk : k < n)
    (h : md.getD (if 2 * (k + 1) ≤ n then n - (k + 1) else n - (k + 1) - 1) 1e22
        < md.getD (if 2 * k ≤ n then n - k else n - k - 1) 1e22 ∨
      b * (((n - k : ℕ) : ℝ) / n) ^ s ≤ md.getD (if 2 * k ≤ n then n - k else n - k - 1) 1e22) :
    ∃ z z', c[k]?.map (·.2.2) = some z ∧ c[k + 1]?.map (·.2.2) = some z' ∧ z < z' := by
  have hn' : (0 : ℝ) < n := by exact_mod_cast hn
  refine ⟨_, _, column_z n x y b s md c hn hc k hk.le, column_z n x y b s md c hn hc (k + 1) hk, ?_⟩
  have h2 : ((n - (k + 1) : ℕ) : ℝ) / n < ((n - k : ℕ) : ℝ) / n := by
    rw [div_lt_div_iff_of_pos_right hn']
    exact_mod_cast (by omega : n - (k + 1) < n - k)
  have h3 : (((n - (k + 1) : ℕ) : ℝ) / n) ^ s < (((n - k : ℕ) : ℝ) / n) ^ s :=
    Real.rpow_lt_rpow (by positivity) h2 hs
  have h4 : -b * (((n - k : ℕ) : ℝ) / n) ^ s < -b * (((n - (k + 1) : ℕ) : ℝ) / n) ^ s := by nlinarith
  rcases h with h | h
  · exact max_lt_max h4 (neg_lt_neg h)
  · rw [max_eq_left (by linarith)]
    exact lt_of_lt_of_le h4 (le_max_left _ _)

/-- C54: no node is below its own limit, nor below the bed. -/
theorem C54_limits (n : ℕ) (x y b s : ℝ) (md : List ℝ) (c : List (ℝ × ℝ × ℝ)) (hn : 0 < n)
    (hs : 0 < s) (hb : 0 ≤ b) (hc : column n x y b s md = some c) (k : ℕ) (hk : k ≤ n) :
    ∃ z, c[k]?.map (·.2.2) = some z ∧ -max b 0 ≤ z ∧
      -md.getD (if 2 * k ≤ n then n - k else n - k - 1) 1e22 ≤ z := by
  have hn' : (0 : ℝ) < n := by exact_mod_cast hn
  refine ⟨_, column_z n x y b s md c hn hc k hk, ?_, le_max_right _ _⟩
  refine le_trans ?_ (le_max_left _ _)
  have h1 : ((n - k : ℕ) : ℝ) / n ≤ 1 := by
    rw [div_le_one hn']; exact_mod_cast Nat.sub_le n k
  have h3 : (((n - k : ℕ) : ℝ) / n) ^ s ≤ 1 := Real.rpow_le_one (by positivity) h1 hs.le
  rw [max_eq_left hb]
  nlinarith

/-- C54 is violated with depth limits: the limits `0, 5, 10, 15, 20` of the five levels, from the
surface down, are exactly the levels of the unlimited column, yet the second level from the top is
limited by the entry of the surface and the uppermost layer gets thickness zero. -/
theorem C54_limit_index_violated :
    ∃ c : List (ℝ × ℝ × ℝ), column 4 0 0 20 1 [0, 5, 10, 15, 20] = some c ∧
      c[4]?.map (·.2.2) = some 0 ∧ c[3]?.map (·.2.2) = some 0 ∧
      ∃ c' : List (ℝ × ℝ × ℝ), column 4 0 0 20 1 [] = some c' ∧ c'[4]?.map (·.2.2) = some 0 ∧
        c'[3]?.map (·.2.2) = some (-5 : ℝ) := by
  obtain ⟨c, hc, -⟩ := (C54_shape 4 0 0 20 1 [0, 5, 10, 15, 20]).1 (by simp)
  obtain ⟨c', hc', -⟩ := (C54_shape 4 0 0 20 1 []).1 (by simp)
  refine ⟨c, hc, ?_, ?_, c', hc', ?_, ?_⟩
  · exact C54_top 4 0 0 20 1 _ c (by norm_num) (by norm_num) (by simp) hc
  · rw [column_z 4 0 0 20 1 _ c (by norm_num) hc 3 (by norm_num)]
    norm_num
  · exact C54_top 4 0 0 20 1 _ c' (by norm_num) (by norm_num) (by norm_num) hc'
  · rw [(C54_strict 4 0 0 20 1 c' (by norm_num) (by norm_num) (by norm_num) (by norm_num) hc').1 3
      (by norm_num)]
    norm_num

/-- The hypotheses of `C54_strict_partial` are met by the lowest layer of a limited column. -/
example : ([1, 5, 10, 15, 20] : List ℝ).getD (if 2 * (0 + 1) ≤ 4 then 4 - (0 + 1) else 4 - (0 + 1) - 1) 1e22
    < ([1, 5, 10, 15, 20] : List ℝ).getD (if 2 * 0 ≤ 4 then 4 - 0 else 4 - 0 - 1) 1e22 := by norm_num

end Verif.Extrude
