import Verif.Epoch.Model
import Mathlib.Tactic.Linarith
import Mathlib.Tactic.FieldSimp
import Mathlib.Tactic.Ring
import Mathlib.Tactic.NormNum
import Mathlib.Tactic.Positivity
import Mathlib.Algebra.Order.Field.Power

/-!
Property C52.
-/

namespace Verif.Epoch

/-- The instant of an aware datetime, in microseconds. -/
def DateTime.instant (t : DateTime) (o : ℤ) : ℤ := t.local' - o

/-! ### Rounding -/

theorem rhe_err (r : ℚ) : |(rhe r : ℚ) - r| ≤ 1 / 2 := by
  have h0 : (⌊r⌋ : ℚ) ≤ r := Int.floor_le r
  have h1 : r < ⌊r⌋ + 1 := Int.lt_floor_add_one r
  unfold rhe
  rw [abs_le]
  split_ifs <;> push_cast <;> constructor <;> linarith

theorem rhe_unique (r : ℚ) (n : ℤ) (h : |r - n| < 1 / 2) : rhe r = n := by
  have h1 := rhe_err r
  rw [abs_lt] at h
  rw [abs_le] at h1
  have h2 : ((rhe r - n : ℤ) : ℚ) < 1 := by push_cast; linarith
  have h3 : (-1 : ℚ) < ((rhe r - n : ℤ) : ℚ) := by push_cast; linarith
  have h4 : rhe r - n < 1 := by exact_mod_cast h2
  have h5 : -1 < rhe r - n := by exact_mod_cast h3
  omega

theorem rhe_int (n : ℤ) : rhe n = n := rhe_unique _ n (by simp)

theorem rhe_mono {r s : ℚ} (h : r ≤ s) : rhe r ≤ rhe s := by
  have hf : ⌊r⌋ ≤ ⌊s⌋ := Int.floor_le_floor h
  have up : ∀ x : ℚ, rhe x ≤ ⌊x⌋ + 1 := by intro x; unfold rhe; split_ifs <;> omega
  have dn : ∀ x : ℚ, ⌊x⌋ ≤ rhe x := by intro x; unfold rhe; split_ifs <;> omega
  rcases hf.lt_or_eq with h1 | h1
  · exact (up r).trans (by have := dn s; omega)
  · unfold rhe
    rw [← h1]
    split_ifs <;> first | omega | (exfalso; linarith)

theorem rhe_neg (r : ℚ) : rhe (-r) = -rhe r := by
  have hfl := Int.floor_le r
  have hfl' := Int.lt_floor_add_one r
  rcases lt_trichotomy (r - ⌊r⌋) (1 / 2) with h | h | h
  · have : rhe r = ⌊r⌋ := by unfold rhe; rw [if_pos h]
    rw [this]
    apply rhe_unique
    push_cast
    rw [abs_lt]; constructor <;> linarith
  · -- a tie
    have hfn : ⌊-r⌋ = -⌊r⌋ - 1 := by
      rw [Int.floor_eq_iff]; push_cast; constructor <;> linarith
    have tie : ∀ x : ℚ, x - ⌊x⌋ = 1 / 2 → rhe x = if ⌊x⌋ % 2 = 0 then ⌊x⌋ else ⌊x⌋ + 1 := by
      intro x hx
      unfold rhe
      rw [if_neg (by linarith), if_neg (by linarith)]
    rw [tie r h, tie (-r) (by rw [hfn]; push_cast; linarith), hfn]
    split_ifs <;> omega
  · have : rhe r = ⌊r⌋ + 1 := by unfold rhe; rw [if_neg (by linarith), if_pos h]
    rw [this]
    apply rhe_unique
    push_cast
    rw [abs_lt]; constructor <;> linarith

theorem fl_neg (x : ℚ) : fl (-x) = -fl x := by
  unfold fl lastBit
  rw [abs_neg]
  by_cases h : x = 0
  · simp [h]
  · rw [if_neg (by simpa using h), if_neg h, neg_div, rhe_neg]
    push_cast; ring

theorem fl_err (x : ℚ) (k : ℤ) (h : |x| < 2 ^ k) : |fl x - x| ≤ 2 ^ (k - 54) := by
  unfold fl
  by_cases hx : x = 0
  · simp [hx]; positivity
  · rw [if_neg hx]
    have hp : 0 < |x| := abs_pos.2 hx
    have hl : Int.log 2 |x| < k := by
      rw [← Int.lt_zpow_iff_log_lt (b := 2) (by norm_num) hp]; exact_mod_cast h
    have h2 : (0 : ℚ) < 2 ^ lastBit x := by positivity
    have e : (rhe (x / 2 ^ lastBit x) : ℚ) * 2 ^ lastBit x - x
        = ((rhe (x / 2 ^ lastBit x) : ℚ) - x / 2 ^ lastBit x) * 2 ^ lastBit x := by
      field_simp
    rw [e, abs_mul, abs_of_pos h2]
    calc _ ≤ 1 / 2 * 2 ^ lastBit x := mul_le_mul_of_nonneg_right (rhe_err _) h2.le
      _ = (2 : ℚ) ^ (lastBit x - 1) := by rw [zpow_sub_one₀ (by norm_num)]; ring
      _ ≤ 2 ^ (k - 54) := by
        apply zpow_le_zpow_right₀ (by norm_num)
        unfold lastBit; omega

theorem fl_nonneg (x : ℚ) (h : 0 ≤ x) : 0 ≤ fl x := by
  unfold fl
  split_ifs
  · exact le_rfl
  · have : (0 : ℤ) ≤ rhe (x / 2 ^ lastBit x) := by
      have := rhe_mono (show (0 : ℚ) ≤ x / 2 ^ lastBit x by positivity)
      have h0 : rhe 0 = 0 := by exact_mod_cast rhe_int 0
      rwa [h0] at this
    have : (0 : ℚ) ≤ rhe (x / 2 ^ lastBit x) := by exact_mod_cast this
    positivity

/-- Rounding keeps the binade of a positive number (or reaches its upper end). -/
theorem fl_binade (x : ℚ) (hx : 0 < x) :
    (2 : ℚ) ^ Int.log 2 x ≤ fl x ∧ fl x ≤ 2 ^ (Int.log 2 x + 1) := by
  have h1 : (2 : ℚ) ^ Int.log 2 x ≤ x := by
    have := Int.zpow_log_le_self (b := 2) (by norm_num) hx; exact_mod_cast this
  have h2 : x < (2 : ℚ) ^ (Int.log 2 x + 1) := by
    have := Int.lt_zpow_succ_log_self (b := 2) (by norm_num) x; exact_mod_cast this
  have hb : lastBit x = Int.log 2 x - 52 := by unfold lastBit; rw [abs_of_pos hx]
  have hp : (0 : ℚ) < 2 ^ lastBit x := by positivity
  have e52 : ((2 ^ 52 : ℤ) : ℚ) * 2 ^ lastBit x = 2 ^ Int.log 2 x := by
    rw [hb, zpow_sub₀ (by norm_num)]; norm_num
    field_simp
  have e53 : ((2 ^ 53 : ℤ) : ℚ) * 2 ^ lastBit x = 2 ^ (Int.log 2 x + 1) := by
    rw [zpow_add_one₀ (by norm_num), ← e52]; push_cast; ring
  have hfl : fl x = rhe (x / 2 ^ lastBit x) * 2 ^ lastBit x := by unfold fl; rw [if_neg hx.ne']
  rw [hfl]
  constructor
  · rw [← e52]
    apply mul_le_mul_of_nonneg_right _ hp.le
    have := rhe_mono (show ((2 ^ 52 : ℤ) : ℚ) ≤ x / 2 ^ lastBit x by rw [le_div_iff₀ hp, e52]; exact h1)
    rw [rhe_int] at this
    exact_mod_cast this
  · rw [← e53]
    apply mul_le_mul_of_nonneg_right _ hp.le
    have := rhe_mono (show x / 2 ^ lastBit x ≤ ((2 ^ 53 : ℤ) : ℚ) by rw [div_le_iff₀ hp, e53]; exact h2.le)
    rw [rhe_int] at this
    exact_mod_cast this

theorem fl_mono_pos {x y : ℚ} (hx : 0 < x) (h : x ≤ y) : fl x ≤ fl y := by
  have hy : 0 < y := hx.trans_le h
  rcases (Int.log_mono_right (b := 2) hx h).lt_or_eq with hl | hl
  · refine (fl_binade x hx).2.trans (le_trans ?_ (fl_binade y hy).1)
    exact zpow_le_zpow_right₀ (by norm_num) (by omega)
  · have e : lastBit x = lastBit y := by unfold lastBit; rw [abs_of_pos hx, abs_of_pos hy, hl]
    unfold fl
    rw [if_neg hx.ne', if_neg hy.ne', e]
    have hp : (0 : ℚ) < 2 ^ lastBit y := by positivity
    apply mul_le_mul_of_nonneg_right _ hp.le
    exact_mod_cast rhe_mono (div_le_div_of_nonneg_right h hp.le)

theorem fl_mono {x y : ℚ} (h : x ≤ y) : fl x ≤ fl y := by
  rcases lt_or_ge 0 x with hx | hx
  · exact fl_mono_pos hx h
  · rcases le_or_gt 0 y with hy | hy
    · have h1 := fl_nonneg (-x) (by linarith)
      rw [fl_neg] at h1
      have h2 := fl_nonneg y hy
      linarith
    · have := fl_mono_pos (show 0 < -y by linarith) (show -y ≤ -x by linarith)
      rw [fl_neg, fl_neg] at this
      linarith

/-! ### Dates -/

theorem toEpoch_eq (t : DateTime) (o : ℤ) (h : t.offset = some o) :
    toEpoch t = some (totalSeconds (t.instant o)) := by
  simp [toEpoch, sub, h, epoch, DateTime.instant]

/-- C52: datetimes of the same instant in different time zones have the same epoch. -/
theorem C52_zone_independent (a b : DateTime) (x y : ℤ) (ha : a.offset = some x)
    (hb : b.offset = some y) (h : a.instant x = b.instant y) : toEpoch a = toEpoch b := by
  rw [toEpoch_eq a x ha, toEpoch_eq b y hb, h]

/-- C52: a later datetime never has a smaller epoch, for all dates and zones. -/
theorem C52_order (a b : DateTime) (x y : ℤ) (ha : a.offset = some x) (hb : b.offset = some y)
    (h : a.instant x ≤ b.instant y) :
    ∃ s t, toEpoch a = some s ∧ toEpoch b = some t ∧ s ≤ t := by
  refine ⟨_, _, toEpoch_eq a x ha, toEpoch_eq b y hb, fl_mono ?_⟩
  apply div_le_div_of_nonneg_right _ (by norm_num)
  exact_mod_cast h

/-- Error of the epoch within 2^33 seconds of 1970. -/
theorem totalSeconds_err (us : ℤ) (h : |us| < 2 ^ 33 * 1000000) :
    |totalSeconds us - us / 1000000| ≤ 2 ^ (-21 : ℤ) := by
  apply fl_err (us / 1000000 : ℚ) 33
  rw [abs_div, abs_of_pos (show (0 : ℚ) < 1000000 by norm_num), div_lt_iff₀ (by norm_num)]
  have : ((|us| : ℤ) : ℚ) < ((2 ^ 33 * 1000000 : ℤ) : ℚ) := by exact_mod_cast h
  push_cast at this
  norm_num at this ⊢
  exact this

theorem abs_sub_trunc (x : ℚ) : |x - trunc x| < 1 := by
  unfold trunc
  split_ifs with h
  · have := Int.floor_le x; have := Int.lt_floor_add_one x
    rw [abs_lt]; constructor <;> linarith
  · have := Int.floor_le (-x); have := Int.lt_floor_add_one (-x)
    rw [abs_lt]; push_cast; constructor <;> linarith

theorem ofSeconds_total (us : ℤ) (h : |us| < 2 ^ 33 * 1000000) : ofSeconds (totalSeconds us) = us := by
  have h1 := totalSeconds_err us h
  set t := totalSeconds us with ht
  unfold ofSeconds
  simp only
  apply rhe_unique
  have h2 : |(t - trunc t) * 1000000| < 2 ^ (20 : ℤ) := by
    rw [abs_mul, abs_of_pos (show (0 : ℚ) < 1000000 by norm_num)]
    have := abs_sub_trunc t
    calc |t - trunc t| * 1000000 < 1 * 1000000 := by
          apply mul_lt_mul_of_pos_right this (by norm_num)
      _ ≤ 2 ^ (20 : ℤ) := by norm_num
  have h3 := fl_err _ 20 h2
  rw [abs_le] at h1 h3
  have e1 : (2 : ℚ) ^ (-21 : ℤ) = 1 / 2097152 := by norm_num
  have e2 : (2 : ℚ) ^ ((20 : ℤ) - 54) = 1 / 17179869184 := by norm_num
  rw [e1] at h1
  rw [e2] at h3
  rw [abs_lt]
  constructor <;> linarith [h1.1, h1.2, h3.1, h3.2]

/-- C52, the part that holds: for every time zone and every date within 2^33 seconds (272 years) of
1970, converting to an epoch and back gives the same instant, to the microsecond, in UTC. -/
theorem C52_roundtrip_partial (t : DateTime) (o : ℤ) (ho : t.offset = some o)
    (h : |t.instant o| < 2 ^ 33 * 1000000) :
    ∃ e u, toEpoch t = some e ∧ fromEpoch e = some u ∧ u.offset = some 0 ∧
      u.instant 0 = t.instant o := by
  refine ⟨_, ⟨t.instant o, some 0⟩, toEpoch_eq t o ho, ?_, rfl, by simp [DateTime.instant]⟩
  unfold fromEpoch
  simp only [ofSeconds_total _ h, epoch, zero_add]
  rw [abs_lt] at h
  rw [if_pos]
  unfold minLocal maxLocal
  constructor <;> linarith [h.1, h.2]

/-- C52: in the same range the epochs of different instants differ. -/
theorem C52_strict_order_partial (a b : DateTime) (x y : ℤ) (ha : a.offset = some x)
    (hb : b.offset = some y) (h : a.instant x < b.instant y) (h1 : |a.instant x| < 2 ^ 33 * 1000000)
    (h2 : |b.instant y| < 2 ^ 33 * 1000000) :
    ∃ s t, toEpoch a = some s ∧ toEpoch b = some t ∧ s < t := by
  refine ⟨_, _, toEpoch_eq a x ha, toEpoch_eq b y hb, ?_⟩
  have e1 := totalSeconds_err _ h1
  have e2 := totalSeconds_err _ h2
  have h' : ((a.instant x : ℤ) : ℚ) + 1 ≤ b.instant y := by exact_mod_cast h
  rw [abs_le] at e1 e2
  have e : (2 : ℚ) ^ (-21 : ℤ) = 1 / 2097152 := by norm_num
  rw [e] at e1 e2
  linarith [e1.1, e1.2, e2.1, e2.2]

/-- C52: the epoch is within half a microsecond of the exact value in this range. -/
theorem C52_value_partial (t : DateTime) (o : ℤ) (ho : t.offset = some o)
    (h : |t.instant o| < 2 ^ 33 * 1000000) :
    ∃ e, toEpoch t = some e ∧ |e - t.instant o / 1000000| < 1 / 2000000 := by
  refine ⟨_, toEpoch_eq t o ho, (totalSeconds_err _ h).trans_lt (by norm_num)⟩

/-- C52: a fixed time zone of `h` hours shifts the epoch by `h` hours, and offsets of a day or more are
refused. -/
theorem C52_fixed_zone (h l : ℤ) :
    (|h| < 24 → ∃ o, fixedTimeZone h = some o ∧
      toEpoch ⟨l, some o⟩ = toEpoch ⟨l - h * 3600 * 1000000, some 0⟩) ∧
    (24 ≤ |h| → fixedTimeZone h = none) := by
  have e : |h * 60| = |h| * 60 := by rw [abs_mul]; norm_num
  constructor
  · intro hh
    refine ⟨h * 60 * 60 * 1000000, ?_, ?_⟩
    · unfold fixedTimeZone
      simp only [e]
      rw [if_neg (by omega)]
    · rw [toEpoch_eq _ _ rfl, toEpoch_eq _ _ rfl]
      unfold DateTime.instant
      simp only
      congr 2
      ring
  · intro hh
    unfold fixedTimeZone
    simp only [e]
    rw [if_pos (by omega)]

/-- C52: a datetime without a time zone is refused. -/
theorem C52_naive (l : ℤ) : toEpoch ⟨l, none⟩ = none := rfl

/-- C52 is violated for far dates: the last moment of the year 9999 rounds up to a date that does not
exist, so it cannot be converted back. -/
theorem C52_last_date_violated : toEpoch ⟨maxLocal, some 0⟩ = some 253402300800 ∧
    fromEpoch 253402300800 = none := by
  constructor <;> decide +kernel

/-- C52 is violated for far dates: in the year 5138 neighbouring microseconds have the same epoch and
the microsecond is lost. -/
theorem C52_microsecond_violated :
    toEpoch ⟨100000000000000001, some 0⟩ = toEpoch ⟨100000000000000000, some 0⟩ ∧
    (fromEpoch 100000000000).map DateTime.local' = some 100000000000000000 ∧
    toEpoch ⟨100000000000000001, some 0⟩ = some 100000000000 := by
  refine ⟨?_, ?_, ?_⟩ <;> decide +kernel

/-- A date in 2016 with an offset of -8 hours meets the hypotheses. -/
example : (⟨1462060800000000, some (-28800000000)⟩ : DateTime).instant (-28800000000)
    = 1462089600000000 ∧ |(1462089600000000 : ℤ)| < 2 ^ 33 * 1000000 := by
  constructor
  · rfl
  · norm_num

end Verif.Epoch
