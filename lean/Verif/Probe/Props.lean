import Verif.Probe.Model
import Mathlib.Tactic.Linarith
import Mathlib.Tactic.NormNum
import Mathlib.Tactic.Positivity
import Mathlib.Tactic.FieldSimp
import Mathlib.Tactic.Ring

/-!
C108: stations, profiles and transects.
-/

namespace Verif.Probe

/-! ### Names -/

theorem short_no (f : Str) : '_' ∉ short f := by
  intro h
  have := List.all_eq_true.1 (List.all_takeWhile (p := fun c => decide (c ≠ '_')) (l := f)) _ h
  simp at this

/-- The last occurrence of a character splits a list in one way. -/
theorem split_last {α : Type} (c : α) (l l' r r' : List α) (h : l ++ c :: r = l' ++ c :: r') (hr : c ∉ r) (hr' : c ∉ r') :
    l = l' ∧ r = r' := by
  rcases List.append_eq_append_iff.1 h with ⟨a, h1, h2⟩ | ⟨a, h1, h2⟩
  · cases a with
    | nil => simp_all
    | cons b a =>
      simp only [List.cons_append, List.cons.injEq] at h2
      exact absurd (h2.2 ▸ List.mem_append_right a List.mem_cons_self) hr
  · cases a with
    | nil => simp_all
    | cons b a =>
      simp only [List.cons_append, List.cons.injEq] at h2
      exact absurd (h2.2 ▸ List.mem_append_right a List.mem_cons_self) hr'

/-- The first occurrence of a character splits a list in one way. -/
theorem split_first {α : Type} (c : α) (l l' r r' : List α) (h : l ++ c :: r = l' ++ c :: r') (hl : c ∉ l) (hl' : c ∉ l') :
    l = l' ∧ r = r' := by
  rcases List.append_eq_append_iff.1 h with ⟨a, h1, h2⟩ | ⟨a, h1, h2⟩
  · cases a with
    | nil => simp_all
    | cons b a =>
      simp only [List.cons_append, List.cons.injEq] at h2
      exact absurd (h1 ▸ List.mem_append_right l (h2.1 ▸ List.mem_cons_self)) hl'
  · cases a with
    | nil => simp_all
    | cons b a =>
      simp only [List.cons_append, List.cons.injEq] at h2
      exact absurd (h1 ▸ List.mem_append_right l' (h2.1 ▸ List.mem_cons_self)) hl

theorem intercalate_cons (c : Char) (a b : Str) (l : List Str) :
    List.intercalate [c] (a :: b :: l) = a ++ c :: List.intercalate [c] (b :: l) := by
  simp [List.intercalate, List.intersperse]

theorem intercalate_inj (c : Char) : ∀ l l' : List Str, l ≠ [] → l' ≠ [] → (∀ s ∈ l, c ∉ s) → (∀ s ∈ l', c ∉ s) →
    List.intercalate [c] l = List.intercalate [c] l' → l = l'
  | [a], [b], _, _, _, _, h => by simpa [List.intercalate] using h
  | [a], b :: b' :: l', _, _, h1, _, h => by
    rw [intercalate_cons] at h
    have : c ∈ a := by
      have e : List.intercalate [c] [a] = a := by simp [List.intercalate]
      rw [← e, h]
      exact List.mem_append_right _ List.mem_cons_self
    exact absurd this (h1 a List.mem_cons_self)
  | a :: a' :: l, [b], _, _, _, h2, h => by
    rw [intercalate_cons] at h
    have : c ∈ b := by
      have e : List.intercalate [c] [b] = b := by simp [List.intercalate]
      rw [← e, ← h]
      exact List.mem_append_right _ List.mem_cons_self
    exact absurd this (h2 b List.mem_cons_self)
  | a :: a' :: l, b :: b' :: l', _, _, h1, h2, h => by
    rw [intercalate_cons, intercalate_cons] at h
    obtain ⟨e1, e2⟩ := split_first c _ _ _ _ h (h1 a List.mem_cons_self) (h2 b List.mem_cons_self)
    have := intercalate_inj c (a' :: l) (b' :: l') (by simp) (by simp) (fun s hs => h1 s (List.mem_cons_of_mem _ hs))
      (fun s hs => h2 s (List.mem_cons_of_mem _ hs)) e2
    rw [e1, this]
  | [], _, h, _, _, _, _ => absurd rfl h
  | _ :: _, [], _, h, _, _, _ => absurd rfl h

theorem fieldStr_no (fields : List Str) : '_' ∉ fieldStr fields := by
  unfold fieldStr
  induction fields with
  | nil => simp [List.intercalate]
  | cons a l ih =>
    cases l with
    | nil => simpa [List.intercalate] using short_no a
    | cons b l =>
      rw [List.map_cons, List.map_cons, intercalate_cons]
      intro h
      rcases List.mem_append.1 h with h | h
      · exact short_no a h
      · rcases List.mem_cons.1 h with h | h
        · exact absurd h (by decide)
        · exact ih h

/-- C108: callbacks of one kind for different locations have different names, also if locations contain underscores; so have
callbacks for different lists of short field names, if these contain no dash. -/
theorem C108_names (base loc loc' : Str) (fields fields' : List Str) (h : name base loc fields = name base loc' fields') :
    loc = loc' ∧ (fields ≠ [] → fields' ≠ [] → (∀ f ∈ fields, '-' ∉ f) → (∀ f ∈ fields', '-' ∉ f) →
      fields.map (fun f => f.takeWhile (· ≠ '_')) = fields'.map (fun f => f.takeWhile (· ≠ '_'))) := by
  unfold name at h
  have h := List.append_cancel_left h
  simp only [List.cons.injEq, true_and] at h
  obtain ⟨h1, h2⟩ := split_last '_' _ _ _ _ h (fieldStr_no _) (fieldStr_no _)
  refine ⟨h1, fun n n' d d' => ?_⟩
  refine intercalate_inj '-' _ _ (by simpa using n) (by simpa using n') ?_ ?_ h2
  · intro s hs
    obtain ⟨f, hf, rfl⟩ := List.mem_map.1 hs
    exact fun hm => d f hf ((List.takeWhile_subset _) hm)
  · intro s hs
    obtain ⟨f, hf, rfl⟩ := List.mem_map.1 hs
    exact fun hm => d' f hf ((List.takeWhile_subset _) hm)

/-- C108: without blanks in the names, different callbacks write to different files. -/
theorem C108_files (n n' : Str) (h : ' ' ∉ n) (h' : ' ' ∉ n') (e : fileName n = fileName n') : n = n' := by
  have id_ : ∀ m : Str, ' ' ∉ m → fileName m = m := by
    intro m hm
    unfold fileName
    conv_rhs => rw [← List.map_id m]
    refine List.map_congr_left fun c hc => ?_
    simp only [id]
    rw [if_neg]
    rintro rfl
    exact hm hc
  rw [← id_ n h, ← id_ n' h', e]

/-- C108 is violated: callbacks with different names that write to the same file. -/
theorem C108_files_violated : ∃ loc loc' : Str, ∃ fields, ∀ base, name base loc fields ≠ name base loc' fields ∧
    fileName (name base loc fields) = fileName (name base loc' fields) := by
  refine ⟨"a b".toList, "a_b".toList, ["elev_2d".toList], fun base => ⟨fun h => ?_, ?_⟩⟩
  · exact absurd (C108_names _ _ _ _ _ h).1 (by decide)
  · simp only [name, fileName, List.map_append]
    congr 1

/-- C108 is violated: different fields with one short name give one name, and a station with both has no file. -/
theorem C108_fields_violated : ∃ f f' : Str, f ≠ f' ∧ (∀ base loc, name base loc [f] = name base loc [f']) ∧
    createFile ([f, f'].map short) = none := by
  refine ⟨"uv_3d".toList, "uv_dav_3d".toList, by decide, fun base loc => ?_, by decide⟩
  have : short "uv_3d".toList = short "uv_dav_3d".toList := by decide
  simp only [name, fieldStr, List.map_cons, List.map_nil, this]

/-- C108: with different short names, none of them `time`, the file is created. -/
theorem C108_created (fields : List Str) (h : (fields.map short).Nodup) (ht : "time".toList ∉ fields.map short) :
    createFile (fields.map short) = some ("time".toList :: fields.map short) := by
  unfold createFile
  rw [if_pos (List.nodup_cons.2 ⟨ht, h⟩)]

/-! ### Positions -/

/-- C108: a station in the water is sampled where it is; one below the bed is moved to 0.1 above the bed. -/
theorem C108_station (z depth elev : ℝ) (hz : z ≤ elev) :
    (-depth ≤ z → stationZ z depth = z) ∧ (z < -depth → stationZ z depth = -depth + 1 / 10) ∧
      (1 / 10 ≤ depth + elev → -depth ≤ stationZ z depth ∧ stationZ z depth ≤ elev) := by
  unfold stationZ
  refine ⟨fun h => if_neg (not_lt.2 h), fun h => by rw [if_pos h]; norm_num, fun h => ?_⟩
  split
  · exact ⟨by norm_num, by norm_num; linarith⟩
  · next h' => exact ⟨not_lt.1 h', hz⟩

/-- C108 is violated in shallow water: the station is moved above the surface. -/
theorem C108_station_violated (depth elev z : ℝ) (h1 : depth + elev < 1 / 10) (hz : z < -depth) :
    elev < stationZ z depth := by
  unfold stationZ
  rw [if_pos hz]
  norm_num
  linarith

/-- C108 is violated: the file of a station that has been moved says that it is at its first position. -/
theorem C108_attribute_violated (z depth : ℝ) (hz : z < -depth) : (station z depth).1 ≠ (station z depth).2 := by
  simp only [station, stationZ, if_pos hz]
  norm_num
  intro h
  linarith

theorem linspace_mem (a b : ℝ) (n k : ℕ) (hk : k < n) (h : b ≤ a) : b ≤ linspace a b n k ∧ linspace a b n k ≤ a := by
  unfold linspace
  split
  · exact ⟨h, le_refl _⟩
  · next hn =>
    have hn : (1 : ℝ) < n := by exact_mod_cast not_le.1 hn
    have hk' : (k : ℝ) ≤ n - 1 := by
      have : (k : ℝ) + 1 ≤ n := by exact_mod_cast hk
      linarith
    have h0 : 0 ≤ (k : ℝ) / (n - 1) := div_nonneg (Nat.cast_nonneg _) (by linarith)
    have h1 : (k : ℝ) / (n - 1) ≤ 1 := (div_le_one (by linarith)).2 hk'
    constructor <;> nlinarith

theorem linspace_first (a b : ℝ) (n : ℕ) : linspace a b n 0 = a := by
  unfold linspace
  split <;> simp

theorem linspace_last (a b : ℝ) (n : ℕ) (hn : 2 ≤ n) : linspace a b n (n - 1) = b := by
  unfold linspace
  rw [if_neg (by omega)]
  have : (n : ℝ) - 1 ≠ 0 := by
    have : (2 : ℝ) ≤ n := by exact_mod_cast hn
    linarith
  rw [Nat.cast_sub (by omega), Nat.cast_one, div_self this]
  ring

theorem profileZ_eq (eps depth elev : ℝ) (n k : ℕ) :
    profileZ eps depth elev n k = linspace (elev - eps) (-(depth - eps)) n k := by
  unfold profileZ linspace
  split <;> simp

/-- C108: a profile goes from just below the surface to just above the bed in equal steps, all its points are in the water. -/
theorem C108_profile (depth elev : ℝ) (n : ℕ) (h : 2 / 100 ≤ depth + elev) :
    (∀ k < n, -depth < profileZ profileEps depth elev n k ∧ profileZ profileEps depth elev n k < elev) ∧
      profileZ profileEps depth elev n 0 = elev - 1 / 100 ∧
      (2 ≤ n → profileZ profileEps depth elev n (n - 1) = -depth + 1 / 100 ∧
        ∀ k, profileZ profileEps depth elev n k - profileZ profileEps depth elev n (k + 1)
          = (depth + elev - 2 / 100) / (n - 1)) := by
  have he : profileEps = 1 / 100 := by norm_num [profileEps]
  simp only [profileZ_eq, he]
  refine ⟨fun k hk => ?_, linspace_first _ _ _, fun hn => ⟨by rw [linspace_last _ _ _ hn]; ring, fun k => ?_⟩⟩
  · obtain ⟨h1, h2⟩ := linspace_mem (elev - 1 / 100) (-(depth - 1 / 100)) n k hk (by linarith)
    constructor <;> linarith
  · unfold linspace
    rw [if_neg (by omega), if_neg (by omega)]
    push_cast
    ring

/-- C108 is violated in very shallow water: the first point of the profile is below the bed. -/
theorem C108_profile_violated (depth elev : ℝ) (n : ℕ) (h : depth + elev < 1 / 100) :
    profileZ profileEps depth elev n 0 < -depth := by
  rw [profileZ_eq, linspace_first]
  norm_num [profileEps]
  linarith

/-- C108: the points of a column of a transect are in the water and between the forced limits, provided the limits leave
something of the column. -/
theorem C108_transect (eps : ℝ) (he : 0 < eps) (fmin fmax : Option ℝ) (depth elev : ℕ → ℝ) (n k j : ℕ) (hk : k < n)
    (h : (limits eps fmin fmax (depth j) (elev j)).1 ≤ (limits eps fmin fmax (depth j) (elev j)).2) :
    -depth j < transZ eps fmin fmax depth elev n k j ∧ transZ eps fmin fmax depth elev n k j < elev j ∧
      (∀ f ∈ fmin, f ≤ transZ eps fmin fmax depth elev n k j) ∧ ∀ f ∈ fmax, transZ eps fmin fmax depth elev n k j ≤ f := by
  obtain ⟨h1, h2⟩ := linspace_mem _ _ n k hk h
  unfold transZ
  dsimp only
  generalize linspace (limits eps fmin fmax (depth j) (elev j)).2 (limits eps fmin fmax (depth j) (elev j)).1 n k = z at h1 h2 ⊢
  unfold limits at h1 h2
  dsimp only at h1 h2
  refine ⟨?_, ?_, ?_, ?_⟩
  · cases fmin with
    | none => simp only at h1; linarith
    | some f => simp only at h1; have := (le_max_left _ _).trans h1; linarith
  · cases fmax with
    | none => simp only at h2; linarith
    | some f => simp only at h2; have := h2.trans (min_le_left _ _); linarith
  · rintro f hf
    rw [Option.mem_def] at hf
    subst hf
    exact (le_max_right _ _).trans h1
  · rintro f hf
    rw [Option.mem_def] at hf
    subst hf
    exact h2.trans (min_le_right _ _)

/-- C108: without forced limits a transect covers each column. -/
theorem C108_transect_ends (eps : ℝ) (depth elev : ℕ → ℝ) (n j : ℕ) (hn : 2 ≤ n) :
    transZ eps none none depth elev n 0 j = elev j - eps ∧ transZ eps none none depth elev n (n - 1) j = -depth j + eps := by
  unfold transZ limits
  dsimp only
  rw [linspace_first, linspace_last _ _ _ hn]
  exact ⟨rfl, by ring⟩

/-- C108 is violated: with a forced upper limit, the transect leaves the water where the bed is above the limit. -/
theorem C108_limit_violated (eps f : ℝ) (depth elev : ℕ → ℝ) (n j : ℕ) (hf : f < -depth j) :
    transZ eps none (some f) depth elev n 0 j < -depth j := by
  unfold transZ limits
  dsimp only
  rw [linspace_first]
  exact (min_le_right _ _).trans_lt hf

theorem ravel_get {α : Type} (nr nc : ℕ) (a : ℕ → ℕ → α) (k j : ℕ) (hk : k < nr) (hj : j < nc) :
    (ravel nr nc a)[k * nc + j]? = some (a k j) := by
  unfold ravel
  have hlt : k * nc + j < nr * nc := by
    calc k * nc + j < k * nc + nc := by omega
      _ = (k + 1) * nc := by ring
      _ ≤ nr * nc := Nat.mul_le_mul_right _ hk
  rw [List.getElem?_map, List.getElem?_range hlt]
  simp only [Option.map_some]
  have h1 : (k * nc + j) / nc = k := by
    rw [mul_comm, Nat.mul_add_div (by omega), Nat.div_eq_of_lt hj, add_zero]
  have h2 : (k * nc + j) % nc = j := by
    rw [mul_comm, Nat.mul_add_mod, Nat.mod_eq_of_lt hj]
  rw [h1, h2]

/-- C108: entry `(k, j)` of the output of a transect is the value of the field at level `k` of column `j`. -/
theorem C108_layout (field : ℝ × ℝ × ℝ → ℕ → ℝ) (eps : ℝ) (fmin fmax : Option ℝ) (x y depth elev : ℕ → ℝ) (nz nxy k j i : ℕ)
    (hk : k < nz) (hj : j < nxy) :
    component field (points eps fmin fmax x y depth elev nz nxy) nxy k j i =
      some (field (x j, y j, transZ eps fmin fmax depth elev nz k j) i) := by
  unfold component points
  have : ((ravel nz nxy fun _ j => x j).zip ((ravel nz nxy fun _ j => y j).zip
      (ravel nz nxy (transZ eps fmin fmax depth elev nz))))[k * nxy + j]?
      = some (x j, y j, transZ eps fmin fmax depth elev nz k j) :=
    List.getElem?_zip_eq_some.2 ⟨ravel_get _ _ (fun _ j => x j) k j hk hj, List.getElem?_zip_eq_some.2
      ⟨ravel_get _ _ (fun _ j => y j) k j hk hj, ravel_get _ _ (transZ eps fmin fmax depth elev nz) k j hk hj⟩⟩
  rw [List.getElem?_map, this]
  rfl

/-- C108: a single coordinate stands for all points of the transect. -/
theorem C108_broadcast {α : Type} (a : α) (y : List α) (x : List α) :
    broadcast [a] y = (y.map (fun _ => a), y) ∧ (x.length ≠ 1 → broadcast x [a] = (x, x.map fun _ => a)) := by
  constructor
  · unfold broadcast
    match y with
    | [] => rfl
    | [b] => rfl
    | _ :: _ :: _ => rfl
  · intro h
    unfold broadcast
    match x with
    | [] => rfl
    | [b] => exact absurd rfl h
    | _ :: _ :: _ => rfl

theorem mapM_length {α β : Type} (f : α → Option β) : ∀ (l : List α) (r : List β), l.mapM f = some r → r.length = l.length
  | [], r, h => by
    simp at h
    simp [h]
  | a :: l, r, h => by
    rw [List.mapM_cons] at h
    cases ha : f a with
    | none => simp [ha] at h
    | some b =>
      cases hl : l.mapM f with
      | none => simp [ha, hl] at h
      | some t =>
        simp [ha, hl] at h
        rw [← h, List.length_cons, List.length_cons, mapM_length f l t hl]

theorem mapM_flatten_length {α β : Type} (f : α → Option (List β)) (g : α → ℕ) (hf : ∀ a r, f a = some r → r.length = g a) :
    ∀ (l : List α) (r : List (List β)), l.mapM f = some r → r.flatten.length = (l.map g).sum
  | [], r, h => by
    simp at h
    simp [h]
  | a :: l, r, h => by
    rw [List.mapM_cons] at h
    cases ha : f a with
    | none => simp [ha] at h
    | some b =>
      cases hl : l.mapM f with
      | none => simp [ha, hl] at h
      | some t =>
        simp [ha, hl] at h
        rw [← h, List.flatten_cons, List.length_append, List.map_cons, List.sum_cons, hf a b ha,
          mapM_flatten_length f g hf l t hl]

/-- C108: a transect has as many variables as arrays. -/
theorem C108_variables (dims : List (Str × ℕ)) (names : List Str) (h : variableNames dims = some names) :
    names.length = 1 + (dims.map Prod.snd).sum ∧ numOutputs dims = 1 + (dims.map Prod.snd).sum := by
  refine ⟨?_, rfl⟩
  unfold variableNames at h
  obtain ⟨l, hl, rfl⟩ := Option.map_eq_some_iff.1 h
  rw [List.length_cons, mapM_flatten_length _ Prod.snd ?_ dims l hl, add_comm]
  intro a r hr
  split at hr
  · next e =>
    simp only [Option.some.injEq] at hr
    rw [← hr, e]
    rfl
  · rw [mapM_length _ _ _ hr, List.length_range]

/-- A salinity and a velocity. -/
example : variableNames [("salt_3d".toList, 1), ("uv_3d".toList, 3)] =
    some ["z_coord".toList, "salt".toList, "uv_x".toList, "uv_y".toList, "uv_z".toList] := by decide

/-- A column in 10 m of water that meets the hypotheses of `C108_transect`. -/
example : (limits 1e-5 (some (-8)) (some (-2)) 10 1).1 ≤ (limits 1e-5 (some (-8)) (some (-2)) 10 1).2 := by
  norm_num [limits]

end Verif.Probe
