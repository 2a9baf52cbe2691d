import Verif.Source.Model
import Mathlib.Tactic.FieldSimp
import Mathlib.Tactic.LinearCombination
import Mathlib.Tactic.NormNum
import Mathlib.Tactic.Positivity
import Mathlib.Tactic.Ring

/-!
C109: levels of ROMS; C110: source nodes and the order of the data; C111: variables, fields and times.
-/

namespace Verif.Source

/-! ### C109 -/

/-- The transformation in the form of the comment in the source. -/
theorem face_eq (zeta hc h s cs : ℚ) :
    romsFace zeta hc h s cs = zeta + (zeta + h) * romsStretch hc h s cs := by
  unfold romsFace; ring

theorem stretch_lt {hc h s s' cs cs' : ℚ} (hhc : 0 ≤ hc) (hh : 0 < h) (h1 : s ≤ s') (h2 : cs < cs') :
    romsStretch hc h s cs < romsStretch hc h s' cs' := by
  unfold romsStretch
  have : 0 < hc + h := by positivity
  rw [div_lt_div_iff_of_pos_right this]
  have a := mul_le_mul_of_nonneg_left h1 hhc
  have b := mul_lt_mul_of_pos_left h2 hh
  linarith

/-- C109: the lowest level lies exactly on the bed and the highest exactly on the surface, for any
number `N ≥ 2` of layers. -/
theorem C109_ends (N : ℕ) (hN : 2 ≤ N) (zeta : ℚ) (hc h : ℚ) (hpos : hc + h ≠ 0) (s cs : ℕ → ℚ)
    (h0 : s 0 = -1 ∧ cs 0 = -1) (h1 : s N = 0 ∧ cs N = 0) :
    romsZ N zeta none hc h s cs 0 = -h ∧ romsZ N zeta none hc h s cs (N - 1) = zeta := by
  have hb : romsStretch hc h (-1) (-1) = -1 := by unfold romsStretch; field_simp; ring
  have ht : romsStretch hc h 0 0 = 0 := by unfold romsStretch; simp
  constructor
  · unfold romsZ romsLevel
    rw [if_neg (by omega), if_pos rfl]
    simp only [romsZeta, face_eq, h0.1, h0.2, hb]; ring
  · unfold romsZ romsLevel
    rw [if_pos (by omega)]
    simp only [romsZeta, face_eq, h1.1, h1.2, ht]; ring

theorem level_bounds {N : ℕ} {w : ℕ → ℚ} (hw : ∀ i j, i < j → j ≤ N → w i < w j) {k : ℕ}
    (hk : k < N) : w k ≤ romsLevel N w k ∧ romsLevel N w k ≤ w (k + 1) := by
  have := hw k (k + 1) (by omega) (by omega)
  unfold romsLevel
  split_ifs with a b
  · subst a; exact ⟨this.le, le_refl _⟩
  · subst b; exact ⟨le_refl _, this.le⟩
  · constructor <;> linarith

theorem level_lt {N : ℕ} {w : ℕ → ℚ} (hw : ∀ i j, i < j → j ≤ N → w i < w j) {k l : ℕ}
    (hkl : k < l) (hl : l < N) : romsLevel N w k < romsLevel N w l := by
  have hk' : romsLevel N w k < w (k + 1) := by
    have := hw k (k + 1) (by omega) (by omega)
    unfold romsLevel
    rw [if_neg (by omega)]
    split_ifs with b
    · subst b; exact this
    · linarith
  have h2 := (level_bounds hw hl).1
  rcases Nat.lt_or_ge (k + 1) l with h | h
  · have := hw (k + 1) l h (by omega); linarith
  · have : k + 1 = l := by omega
    rw [this] at hk'; linarith

/-- C109: with water in the column (`ζ + h > 0`), a bed below the datum and vertical coordinates that
increase upwards, the levels increase strictly from the bed to the surface: no two levels of a column
coincide, so that the points can be triangulated. -/
theorem C109_monotone (N : ℕ) (zeta : ℚ) (hc h : ℚ) (hhc : 0 ≤ hc) (hh : 0 < h) (hwet : 0 < zeta + h)
    (s cs : ℕ → ℚ) (hs : ∀ i j, i < j → j ≤ N → s i ≤ s j) (hcs : ∀ i j, i < j → j ≤ N → cs i < cs j)
    (k l : ℕ) (hkl : k < l) (hl : l < N) :
    romsZ N zeta none hc h s cs k < romsZ N zeta none hc h s cs l := by
  refine level_lt (fun i j hij hj => ?_) hkl hl
  simp only [face_eq]
  have := mul_lt_mul_of_pos_left (stretch_lt hhc hh (hs i j hij hj) (hcs i j hij hj)) hwet
  simp only [romsZeta]
  linarith

/-- C109: every level lies in its own layer, and a level that is neither first nor last lies half way
between the faces of the layer. -/
theorem C109_layer (N : ℕ) (zeta : ℚ) (hc h : ℚ) (hhc : 0 ≤ hc) (hh : 0 < h) (hwet : 0 < zeta + h)
    (s cs : ℕ → ℚ) (hs : ∀ i j, i < j → j ≤ N → s i ≤ s j) (hcs : ∀ i j, i < j → j ≤ N → cs i < cs j)
    (k : ℕ) (hk : k < N) :
    romsFace zeta hc h (s k) (cs k) ≤ romsZ N zeta none hc h s cs k ∧
    romsZ N zeta none hc h s cs k ≤ romsFace zeta hc h (s (k + 1)) (cs (k + 1)) ∧
    (0 < k → k + 1 < N → romsZ N zeta none hc h s cs k =
      (romsFace zeta hc h (s k) (cs k) + romsFace zeta hc h (s (k + 1)) (cs (k + 1))) / 2) := by
  have hw : ∀ i j, i < j → j ≤ N →
      romsFace zeta hc h (s i) (cs i) < romsFace zeta hc h (s j) (cs j) := by
    intro i j hij hj
    simp only [face_eq]
    have := mul_lt_mul_of_pos_left (stretch_lt hhc hh (hs i j hij hj) (hcs i j hij hj)) hwet
    linarith
  obtain ⟨a, b⟩ := level_bounds (w := fun i => romsFace zeta hc h (s i) (cs i)) hw hk
  refine ⟨a, b, fun h0 h1 => ?_⟩
  unfold romsZ romsLevel
  rw [if_neg (by omega), if_neg (by omega)]
  simp only [romsZeta]; ring

/-- C109: the heights are computed for a fixed elevation of 0.1 m and not for the elevation in the
file.  A face is displaced by `(0.1 - ζ)(1 + S)`: not at all at the bed, and nowhere by more than the
difference of the elevations. -/
theorem C109_displacement (file hc h s cs : ℚ) (hS0 : -1 ≤ romsStretch hc h s cs)
    (hS1 : romsStretch hc h s cs ≤ 0) :
    romsFace (romsZeta file (some romsConstant)) hc h s cs - romsFace file hc h s cs =
      (1 / 10 - file) * (1 + romsStretch hc h s cs) ∧
    |romsFace (romsZeta file (some romsConstant)) hc h s cs - romsFace file hc h s cs| ≤
      |1 / 10 - file| := by
  have e : romsFace (romsZeta file (some romsConstant)) hc h s cs - romsFace file hc h s cs =
      (1 / 10 - file) * (1 + romsStretch hc h s cs) := by
    have : romsZeta file (some romsConstant) = 1 / 10 := by
      unfold romsZeta romsConstant; norm_num
    rw [this]; unfold romsFace; ring
  refine ⟨e, ?_⟩
  rw [e, abs_mul, abs_of_nonneg (by linarith : 0 ≤ 1 + romsStretch hc h s cs)]
  have := abs_nonneg (1 / 10 - file)
  nlinarith

/-- C109: the heights do not depend on the elevation in the file once a non-zero constant is given,
and are those of that elevation. -/
theorem C109_constant (N : ℕ) (file z : ℚ) (hz : z ≠ 0) (hc h : ℚ) (s cs : ℕ → ℚ) (k : ℕ) :
    romsZ N file (some z) hc h s cs k = romsZ N z none hc h s cs k := by
  simp [romsZ, romsZeta, hz]

/-- C109 fails for a constant elevation of zero: it is ignored, and the elevation of the file is used. -/
theorem C109_zero_violated :
    ∃ (file hc h : ℚ) (s cs : ℕ → ℚ) (N k : ℕ),
      romsZ N file (some 0) hc h s cs k = romsZ N file none hc h s cs k ∧
      romsZ N file (some 0) hc h s cs k ≠ romsZ N 0 none hc h s cs k := by
  refine ⟨1, 10, 10, fun i => (i : ℚ) / 2 - 1, fun i => (i : ℚ) / 2 - 1, 2, 1, rfl, ?_⟩
  simp only [romsZ, romsLevel, romsZeta, romsFace, romsStretch]
  norm_num

/-- C109 fails where the bed is higher than 0.1 m above the datum (intertidal areas): the levels are
upside down, whatever the elevation in the file. -/
theorem C109_dry_violated (file : ℚ) :
    ∃ (hc h : ℚ) (s cs : ℕ → ℚ), (∀ i j, i < j → s i < s j ∧ cs i < cs j) ∧ 0 < file + h + |file| + 1 ∧
      romsZ 2 file (some romsConstant) hc h s cs 1 < romsZ 2 file (some romsConstant) hc h s cs 0 := by
  refine ⟨10, -1 / 5, fun i => (i : ℚ) / 2 - 1, fun i => (i : ℚ) / 2 - 1, ?_, ?_, ?_⟩
  · intro i j h
    have : (i : ℚ) < j := by exact_mod_cast h
    constructor <;> linarith
  · have := neg_abs_le file; linarith
  · simp only [romsZ, romsLevel, romsZeta, romsFace, romsStretch, romsConstant]
    norm_num

/-- The hypotheses of C109 hold for three layers in 10 m of water. -/
example :
    let s : ℕ → ℚ := fun i => (i : ℚ) / 3 - 1
    (s 0 = -1 ∧ s 3 = 0) ∧ (∀ i j, i < j → j ≤ 3 → s i < s j) ∧
    romsZ 3 1 none 5 10 s s 0 = -10 ∧ romsZ 3 1 none 5 10 s s 1 = -9 / 2 ∧
    romsZ 3 1 none 5 10 s s 2 = 1 := by
  refine ⟨by norm_num, fun i j h _ => ?_, ?_, ?_, ?_⟩
  · have : (i : ℚ) < j := by exact_mod_cast h
    linarith
  all_goals simp only [romsZ, romsLevel, romsZeta, romsFace, romsStretch]; norm_num

/-! ### C110: which nodes -/

/-- C110: the vertices of the triangle of every target that lies on the grid are used, and nothing but
vertices of triangles. -/
theorem C110_support (simplices : List (List ℕ)) (located : List (Option ℕ)) (i : ℕ)
    (hi : some i ∈ located) (T : List ℕ) (hT : simplices[i]? = some T) (n : ℕ) (hn : n ∈ T) :
    n ∈ subsetNodes simplices located := by
  unfold subsetNodes
  rw [List.mem_insertionSort, List.mem_dedup, List.mem_flatten]
  exact ⟨T, List.mem_map.2 ⟨some i, hi, by simp [taken, hT]⟩, hn⟩

/-- C110: a node is used only if it is a vertex of the triangle of some target on the grid or of the
last triangle. -/
theorem C110_minimal (simplices : List (List ℕ)) (located : List (Option ℕ)) (n : ℕ)
    (hn : n ∈ subsetNodes simplices located) :
    (∃ i T, some i ∈ located ∧ simplices[i]? = some T ∧ n ∈ T) ∨
      (none ∈ located ∧ ∃ T, simplices.getLast? = some T ∧ n ∈ T) := by
  unfold subsetNodes at hn
  rw [List.mem_insertionSort, List.mem_dedup, List.mem_flatten] at hn
  obtain ⟨T, hT, hnT⟩ := hn
  obtain ⟨o, ho, rfl⟩ := List.mem_map.1 hT
  cases o with
  | none =>
    right
    refine ⟨ho, ?_⟩
    cases h : simplices.getLast? with
    | none => simp [taken, h] at hnT
    | some T => exact ⟨T, rfl, by simpa [taken, h] using hnT⟩
  | some i =>
    left
    cases h : simplices[i]? with
    | none => simp [taken, h] at hnT
    | some T => exact ⟨i, T, ho, h, by simpa [taken, h] using hnT⟩

/-- C110: no node is listed twice. -/
theorem C110_once (simplices : List (List ℕ)) (located : List (Option ℕ)) :
    (subsetNodes simplices located).Nodup :=
  (List.perm_insertionSort _ _).nodup_iff.2 (List.nodup_dedup _)

theorem mem_box {ncols : ℕ} {nodes l : List ℕ} (hl : boxNodes ncols nodes = some l) {n : ℕ}
    (hn : n ∈ nodes) : n ∈ l := by
  unfold boxNodes at hl
  cases h0 : (nodes.map (· / ncols)).min? with
  | none => simp [h0] at hl
  | some r0 =>
  cases h1 : (nodes.map (· / ncols)).max? with
  | none => simp [h0, h1] at hl
  | some r1 =>
  cases h2 : (nodes.map (· % ncols)).min? with
  | none => simp [h0, h1, h2] at hl
  | some c0 =>
  cases h3 : (nodes.map (· % ncols)).max? with
  | none => simp [h0, h1, h2, h3] at hl
  | some c1 =>
    simp only [h0, h1, h2, h3, Option.bind_eq_bind, Option.bind_some, Option.pure_def,
      Option.some.injEq] at hl
    subst hl
    have a := (List.min?_eq_some_iff.1 h0).2 _ (List.mem_map.2 ⟨n, hn, rfl⟩)
    have b := (List.max?_eq_some_iff.1 h1).2 _ (List.mem_map.2 ⟨n, hn, rfl⟩)
    have c := (List.min?_eq_some_iff.1 h2).2 _ (List.mem_map.2 ⟨n, hn, rfl⟩)
    have d := (List.max?_eq_some_iff.1 h3).2 _ (List.mem_map.2 ⟨n, hn, rfl⟩)
    refine List.mem_flatMap.2 ⟨n / ncols, List.mem_range'.2 ⟨n / ncols - r0, by omega, by omega⟩, ?_⟩
    refine List.mem_map.2 ⟨n % ncols, List.mem_range'.2 ⟨n % ncols - c0, by omega, by omega⟩, ?_⟩
    exact Nat.div_add_mod' n ncols

/-- C110: the rectangle of rows and columns read from a latitude-longitude file contains the triangle
of every target that lies on the grid. -/
theorem C110_box (ncols : ℕ) (simplices : List (List ℕ)) (located : List (Option ℕ)) (l : List ℕ)
    (hl : boxNodes ncols (subsetNodes simplices located) = some l) (i : ℕ) (hi : some i ∈ located)
    (T : List ℕ) (hT : simplices[i]? = some T) : ∀ n ∈ T, n ∈ l :=
  fun _ hn => mem_box hl (C110_support simplices located i hi T hT _ hn)

/-- C110: the rectangle is read whenever there is a node at all, consists of nodes of the grid, and
lists no node twice. -/
theorem C110_box_valid (nrows ncols : ℕ) (nodes : List ℕ) (hne : nodes ≠ [])
    (hin : ∀ n ∈ nodes, n < nrows * ncols) :
    ∃ l, boxNodes ncols nodes = some l ∧ (∀ n ∈ l, n < nrows * ncols) ∧ l.Nodup := by
  obtain ⟨n0, hn0⟩ := List.exists_mem_of_ne_nil _ hne
  have hc : 0 < ncols := by
    rcases Nat.eq_zero_or_pos ncols with h | h
    · have := hin _ hn0; simp [h] at this
    · exact h
  have hmin : ∀ f : ℕ → ℕ, ∃ a, (nodes.map f).min? = some a := by
    intro f
    cases h : (nodes.map f).min? with
    | none => rw [List.min?_eq_none_iff, List.map_eq_nil_iff] at h; exact absurd h hne
    | some a => exact ⟨a, rfl⟩
  have hmax : ∀ f : ℕ → ℕ, ∃ a, (nodes.map f).max? = some a := by
    intro f
    cases h : (nodes.map f).max? with
    | none => rw [List.max?_eq_none_iff, List.map_eq_nil_iff] at h; exact absurd h hne
    | some a => exact ⟨a, rfl⟩
  obtain ⟨r0, h0⟩ := hmin (· / ncols)
  obtain ⟨r1, h1⟩ := hmax (· / ncols)
  obtain ⟨c0, h2⟩ := hmin (· % ncols)
  obtain ⟨c1, h3⟩ := hmax (· % ncols)
  have e : boxNodes ncols nodes = some ((List.range' r0 (r1 + 1 - r0)).flatMap fun r =>
      (List.range' c0 (c1 + 1 - c0)).map fun c => r * ncols + c) := by
    simp [boxNodes, h0, h1, h2, h3]
  have hr1 : r1 < nrows := by
    obtain ⟨n, hn, rfl⟩ := List.mem_map.1 (List.max?_eq_some_iff.1 h1).1
    exact Nat.div_lt_of_lt_mul (by rw [Nat.mul_comm]; exact hin n hn)
  have hc1 : c1 < ncols := by
    obtain ⟨n, _, rfl⟩ := List.mem_map.1 (List.max?_eq_some_iff.1 h3).1
    exact Nat.mod_lt _ hc
  refine ⟨_, e, ?_, ?_⟩
  · intro n hn
    obtain ⟨r, hr, hn⟩ := List.mem_flatMap.1 hn
    obtain ⟨c, hc', rfl⟩ := List.mem_map.1 hn
    obtain ⟨a, ha, rfl⟩ := List.mem_range'.1 hr
    obtain ⟨b, hb, rfl⟩ := List.mem_range'.1 hc'
    have h4 : (r0 + 1 * a) + 1 ≤ nrows := by omega
    have h5 : c0 + 1 * b < ncols := by omega
    calc (r0 + 1 * a) * ncols + (c0 + 1 * b) < (r0 + 1 * a) * ncols + ncols := by omega
      _ = ((r0 + 1 * a) + 1) * ncols := by ring
      _ ≤ nrows * ncols := Nat.mul_le_mul_right _ h4
  · rw [List.nodup_flatMap]
    constructor
    · intro r _
      exact (List.nodup_range').map (fun a b h => by simpa using h)
    · refine List.Pairwise.imp_of_mem ?_ (List.nodup_range' (s := r0) (n := r1 + 1 - r0))
      intro r r' _ _ hne' x hx hx'
      obtain ⟨c, hcm, rfl⟩ := List.mem_map.1 hx
      obtain ⟨c', hcm', hxx⟩ := List.mem_map.1 hx'
      obtain ⟨b, hb, rfl⟩ := List.mem_range'.1 hcm
      obtain ⟨b', hb', rfl⟩ := List.mem_range'.1 hcm'
      apply hne'
      have h5 : c0 + 1 * b < ncols := by omega
      have h6 : c0 + 1 * b' < ncols := by omega
      have d1 : (r * ncols + (c0 + 1 * b)) / ncols = r := by
        rw [Nat.mul_comm, Nat.mul_add_div hc, Nat.div_eq_of_lt h5, Nat.add_zero]
      have d2 : (r' * ncols + (c0 + 1 * b')) / ncols = r' := by
        rw [Nat.mul_comm, Nat.mul_add_div hc, Nat.div_eq_of_lt h6, Nat.add_zero]
      rw [← d1, ← d2, hxx]

/-! ### C110: order of the data -/

theorem compress_map {α : Type} (nodes : List ℕ) (p : ℕ → Bool) (f : ℕ → α) :
    compress (nodes.map p) (nodes.map f) = (nodes.filter p).map f := by
  unfold compress
  induction nodes with
  | nil => rfl
  | cons n l ih =>
    cases h : p n <;> simp [h] at ih ⊢ <;> exact ih

theorem compress_self (nodes : List ℕ) (p : ℕ → Bool) :
    compress (nodes.map p) nodes = nodes.filter p := by
  have := compress_map nodes p id
  simpa using this

theorem tile_eq {α : Type} (nz : ℕ) (l : List ℕ) (f : ℕ → α) :
    tile nz (l.map f) = (List.range nz).flatMap fun _ => l.map f := by
  unfold tile
  rw [List.flatMap_def]
  congr 1
  rw [List.map_const', List.length_range]

theorem flatMap_zip {α β : Type} (ks : List ℕ) (l : List ℕ) (f : ℕ → ℕ → α) (g : ℕ → ℕ → β) :
    (ks.flatMap fun k => l.map (f k)).zip (ks.flatMap fun k => l.map (g k)) =
      ks.flatMap fun k => l.map fun n => (f k n, g k n) := by
  induction ks with
  | nil => rfl
  | cons k ks ih =>
    simp only [List.flatMap_cons]
    rw [List.zip_append (by simp), ih]
    congr 1
    rw [List.zip_map']

/-- C110: in the generic reader the `i`-th source point and the `i`-th value come from the same node of
the file, and exactly the subset nodes with valid data are used, in order. -/
theorem C110_generic (nodes : List ℕ) (valid : ℕ → Bool) (lat lon var : ℕ → ℚ) :
    (genericPoints nodes valid lat lon).zip (genericData nodes valid var) =
      (nodes.filter valid).map fun n => ((lat n, lon n), var n) := by
  unfold genericPoints genericData
  rw [compress_map, compress_map, compress_map, List.zip_map', List.zip_map']

/-- C110: in the ROMS reader the `i`-th source point and the `i`-th value come from the same node and
the same level, for a variable on the levels of the density points. -/
theorem C110_roms (nz : ℕ) (nodes : List ℕ) (wet : ℕ → Bool) (lat lon : ℕ → ℚ) (z var : ℕ → ℕ → ℚ) :
    (romsPoints nz nodes wet lat lon z).zip (romsData nz nodes wet var) =
      (List.range nz).flatMap fun k =>
        (nodes.filter wet).map fun n => ((lat n, lon n, z k n), var k n) := by
  unfold romsPoints romsData ravel
  simp only [compress_map, compress_self, tile_eq]
  rw [flatMap_zip, flatMap_zip, flatMap_zip]

/-- C110 fails for a variable of ROMS on the faces between the layers (one level more): there is a
value for every point and no error, but from the second level on it is the value of another height,
although the lists line up at the first level. -/
theorem C110_faces_violated :
    ∃ (nodes : List ℕ) (wet : ℕ → Bool) (lat lon : ℕ → ℚ) (z var : ℕ → ℕ → ℚ),
      (romsPoints 2 nodes wet lat lon z).length < (romsData 3 nodes wet var).length ∧
      (∀ k n, var k n = (k : ℚ) - 2) ∧ (∀ n, z 1 n = 0) ∧
      (romsPoints 2 nodes wet lat lon z)[1]? = some (0, 0, 0) ∧
      (romsData 3 nodes wet var)[1]? = some (-1 : ℚ) := by
  refine ⟨[0], fun _ => true, fun _ => 0, fun _ => 0, fun k _ => (k : ℚ) - 1, fun k _ => (k : ℚ) - 2,
    by decide, fun _ _ => rfl, fun _ => by norm_num, ?_, ?_⟩
  · simp [romsPoints, compress, tile, ravel, List.range, List.range.loop]
  · simp [romsData, compress, ravel, List.range, List.range.loop]
    norm_num

theorem compress_flatMap {α : Type} (ks l : List ℕ) (p : ℕ → ℕ → Bool) (f : ℕ → ℕ → α) :
    compress (ks.flatMap fun k => l.map (p k)) (ks.flatMap fun k => l.map (f k)) =
      ks.flatMap fun k => (l.filter (p k)).map (f k) := by
  induction ks with
  | nil => rfl
  | cons k ks ih =>
    simp only [List.flatMap_cons]
    rw [← ih, ← compress_map]
    unfold compress
    rw [List.zip_append (by simp), List.filter_append, List.map_append]

theorem flatMap_zip' {α β : Type} (ks : List ℕ) (l : ℕ → List ℕ) (f : ℕ → ℕ → α) (g : ℕ → ℕ → β) :
    (ks.flatMap fun k => (l k).map (f k)).zip (ks.flatMap fun k => (l k).map (g k)) =
      ks.flatMap fun k => (l k).map fun n => (f k n, g k n) := by
  induction ks with
  | nil => rfl
  | cons k ks ih =>
    simp only [List.flatMap_cons]
    rw [List.zip_append (by simp), ih]
    congr 1
    rw [List.zip_map']

/-- C110: in the NCOM reader the `i`-th source point and the `i`-th value come from the same node and
the same level; only entries that are defined are used, and the uppermost points are moved to 1.5 m. -/
theorem C110_ncom (nz : ℕ) (nodes : List ℕ) (good : ℕ → ℕ → Bool) (lat lon : ℕ → ℚ)
    (zm var : ℕ → ℕ → ℚ) :
    (ncomPoints nz nodes good lat lon zm).zip (ncomData nz nodes good var) =
      (List.range nz).flatMap fun k => (nodes.filter (good k)).map fun n =>
        ((lat n, lon n, if k = 0 then 3 / 2 else zm k n), var k n) := by
  unfold ncomPoints ncomData ravel
  simp only [tile_eq, compress_flatMap]
  rw [flatMap_zip', flatMap_zip', flatMap_zip']

/-- C110 fails for a variable that is undefined where the first variable of the first file is defined:
whatever the file holds there is used as data. -/
theorem C110_mask_violated (junk : ℚ) :
    ∃ (nodes : List ℕ) (goodFirst goodVar : ℕ → ℕ → Bool) (var : ℕ → ℕ → ℚ),
      (∀ k n, goodVar k n = true → var k n = 0) ∧ junk ∈ ncomData 1 nodes goodFirst var ∧
      junk ∉ (ncomData 1 nodes goodVar var) := by
  refine ⟨[0], fun _ _ => true, fun _ _ => false, fun _ _ => junk, by simp, ?_, ?_⟩
  · simp [ncomData, compress, ravel, List.range, List.range.loop]
  · simp [ncomData, compress, ravel, List.range, List.range.loop]

/-! ### C110: nearest source point -/

/-- What `ncomNodes` returns. -/
theorem ncomNodes_mem {total : ℕ} {good : ℕ → Bool} {lat lon : ℕ → ℚ} {targets : List (ℚ × ℚ)}
    {query l : List ℕ} (h : ncomNodes total good lat lon targets query = some l) :
    ∃ box nn, ncomBox targets = some box ∧
      query.mapM (((List.range total).filter good)[·]?) = some nn ∧
      ∀ n, n ∈ l ↔ n < total ∧ ((box.1.1 ≤ lat n ∧ lat n ≤ box.1.2 ∧ box.2.1 ≤ lon n ∧ lon n ≤ box.2.2 ∧
        good n = true) ∨ n ∈ nn) := by
  unfold ncomNodes at h
  cases hb : ncomBox targets with
  | none => simp [hb] at h
  | some box =>
  cases hq : query.mapM (((List.range total).filter good)[·]?) with
  | none => simp [hb, hq] at h
  | some nn =>
    simp only [hb, hq, Option.bind_eq_bind, Option.bind_some, Option.pure_def] at h
    split_ifs at h
    refine ⟨box, nn, rfl, rfl, fun n => ?_⟩
    rw [← Option.some.inj h]
    simp [List.mem_filter, and_assoc]

theorem mapM_getElem_mem {l : List ℕ} {query nn : List ℕ} (h : query.mapM (l[·]?) = some nn) :
    (∀ n ∈ nn, n ∈ l) ∧ ∀ i ∈ query, ∃ n ∈ nn, l[i]? = some n := by
  induction query generalizing nn with
  | nil =>
    simp at h; subst h; simp
  | cons q qs ih =>
    rw [List.mapM_cons] at h
    cases hq : l[q]? with
    | none => simp [hq] at h
    | some a =>
      cases hr : qs.mapM (l[·]?) with
      | none => simp [hq, hr] at h
      | some as =>
        simp [hq, hr] at h
        subst h
        obtain ⟨h1, h2⟩ := ih hr
        refine ⟨?_, ?_⟩
        · intro n hn
          rcases List.mem_cons.1 hn with rfl | hn
          · exact List.mem_of_getElem? hq
          · exact h1 n hn
        · intro i hi
          rcases List.mem_cons.1 hi with rfl | hi
          · exact ⟨a, by simp, hq⟩
          · obtain ⟨n, hn, e⟩ := h2 i hi
            exact ⟨n, List.mem_cons_of_mem _ hn, e⟩

/-- C110: the NCOM readers use no node without data. -/
theorem C110_ncom_valid (total : ℕ) (good : ℕ → Bool) (lat lon : ℕ → ℚ) (targets : List (ℚ × ℚ))
    (query l : List ℕ) (h : ncomNodes total good lat lon targets query = some l) :
    ∀ n ∈ l, n < total ∧ good n = true := by
  obtain ⟨box, nn, _, hq, hmem⟩ := ncomNodes_mem h
  intro n hn
  obtain ⟨h1, h2 | h2⟩ := (hmem n).1 hn
  · exact ⟨h1, h2.2.2.2.2⟩
  · have := (mapM_getElem_mem hq).1 n h2
    rw [List.mem_filter] at this
    exact ⟨h1, this.2⟩

/-- C110: filling from the nodes used by the NCOM reader is filling from all nodes with data.  Whatever
point the search among the used nodes returns for a target, it is a node with data and no node of the
whole grid with data is nearer. -/
theorem C110_ncom_nearest (total : ℕ) (good : ℕ → Bool) (lat lon : ℕ → ℚ) (targets : List (ℚ × ℚ))
    (query l : List ℕ) (h : ncomNodes total good lat lon targets query = some l)
    (hquery : ∀ t ∈ targets, ∃ i ∈ query, IsNearest
      (((List.range total).filter good).map fun n => (lat n, lon n)) t i)
    (t : ℚ × ℚ) (ht : t ∈ targets) (j : ℕ)
    (hj : IsNearest (l.map fun n => (lat n, lon n)) t j) :
    ∃ n, l[j]? = some n ∧ good n = true ∧
      ∀ m < total, good m = true → dist2 (lat n, lon n) t ≤ dist2 (lat m, lon m) t := by
  have hval := C110_ncom_valid _ _ _ _ _ _ _ h
  obtain ⟨box, nn, _, hq, hmem⟩ := ncomNodes_mem h
  obtain ⟨p, hp, hmin⟩ := hj
  rw [List.getElem?_map, Option.map_eq_some_iff] at hp
  obtain ⟨n, hn, rfl⟩ := hp
  refine ⟨n, hn, (hval n (List.mem_of_getElem? hn)).2, fun m hm hgm => ?_⟩
  obtain ⟨i, hi, p', hp', hmin'⟩ := hquery t ht
  obtain ⟨n', hn', e'⟩ := (mapM_getElem_mem hq).2 i hi
  rw [List.getElem?_map, e'] at hp'
  simp only [Option.map_some, Option.some.injEq] at hp'
  have hg' := List.mem_of_getElem? e'
  rw [List.mem_filter, List.mem_range] at hg'
  have h1 := hmin _ (List.mem_map.2 ⟨n', (hmem n').2 ⟨hg'.1, Or.inr hn'⟩, rfl⟩)
  have h2 := hmin' _ (List.mem_map.2 ⟨m, List.mem_filter.2 ⟨List.mem_range.2 hm, hgm⟩, rfl⟩)
  rw [← hp'] at h2
  exact h1.trans h2

/-- C110: in particular the value filled in does not depend on the other targets (the partition of the
mesh): with one nearest node, two processes that hold the same target fill in the same value. -/
theorem C110_ncom_partition (total : ℕ) (good : ℕ → Bool) (lat lon : ℕ → ℚ)
    (targets targets' : List (ℚ × ℚ)) (query query' l l' : List ℕ)
    (h : ncomNodes total good lat lon targets query = some l)
    (h' : ncomNodes total good lat lon targets' query' = some l')
    (hquery : ∀ t ∈ targets, ∃ i ∈ query, IsNearest
      (((List.range total).filter good).map fun n => (lat n, lon n)) t i)
    (hquery' : ∀ t ∈ targets', ∃ i ∈ query', IsNearest
      (((List.range total).filter good).map fun n => (lat n, lon n)) t i)
    (t : ℚ × ℚ) (ht : t ∈ targets) (ht' : t ∈ targets')
    (huniq : ∀ m m', m < total → m' < total → good m = true → good m' = true →
      dist2 (lat m, lon m) t = dist2 (lat m', lon m') t → m = m')
    (j j' : ℕ) (hj : IsNearest (l.map fun n => (lat n, lon n)) t j)
    (hj' : IsNearest (l'.map fun n => (lat n, lon n)) t j') : l[j]? = l'[j']? := by
  obtain ⟨n, hn, hg, hmin⟩ := C110_ncom_nearest _ _ _ _ _ _ _ h hquery t ht j hj
  obtain ⟨n', hn', hg', hmin'⟩ := C110_ncom_nearest _ _ _ _ _ _ _ h' hquery' t ht' j' hj'
  have a := (C110_ncom_valid _ _ _ _ _ _ _ h n (List.mem_of_getElem? hn)).1
  have a' := (C110_ncom_valid _ _ _ _ _ _ _ h' n' (List.mem_of_getElem? hn')).1
  rw [hn, hn', huniq n n' a a' hg hg' (le_antisymm (hmin n' a' hg') (hmin' n a hg))]

/-- C110: nodes with data within 0.2 degrees of a target are used, so that on a finer grid the whole
cell around a target is there. -/
theorem C110_ncom_cell (total : ℕ) (good : ℕ → Bool) (lat lon : ℕ → ℚ) (targets : List (ℚ × ℚ))
    (query l : List ℕ) (h : ncomNodes total good lat lon targets query = some l)
    (t : ℚ × ℚ) (ht : t ∈ targets) (n : ℕ) (hn : n < total) (hg : good n = true)
    (h1 : |lat n - t.1| ≤ 1 / 5) (h2 : |lon n - t.2| ≤ 1 / 5) : n ∈ l := by
  obtain ⟨box, nn, hb, _, hmem⟩ := ncomNodes_mem h
  refine (hmem n).2 ⟨hn, Or.inl ?_⟩
  unfold ncomBox at hb
  cases k0 : (targets.map (·.1)).min? with
  | none => simp [k0] at hb
  | some a =>
  cases k1 : (targets.map (·.1)).max? with
  | none => simp [k0, k1] at hb
  | some b =>
  cases k2 : (targets.map (·.2)).min? with
  | none => simp [k0, k1, k2] at hb
  | some c =>
  cases k3 : (targets.map (·.2)).max? with
  | none => simp [k0, k1, k2, k3] at hb
  | some d =>
    simp only [k0, k1, k2, k3, Option.bind_eq_bind, Option.bind_some, Option.pure_def,
      Option.some.injEq] at hb
    subst hb
    have q0 := (List.min?_eq_some_iff.1 k0).2 _ (List.mem_map.2 ⟨t, ht, rfl⟩)
    have q1 := (List.max?_eq_some_iff.1 k1).2 _ (List.mem_map.2 ⟨t, ht, rfl⟩)
    have q2 := (List.min?_eq_some_iff.1 k2).2 _ (List.mem_map.2 ⟨t, ht, rfl⟩)
    have q3 := (List.max?_eq_some_iff.1 k3).2 _ (List.mem_map.2 ⟨t, ht, rfl⟩)
    rw [abs_le] at h1 h2
    simp only [ncomBuffer]
    exact ⟨by linarith, by linarith, by linarith, by linarith, hg⟩

/-- C110: with one target and one node with data the NCOM reader never runs out of source points. -/
theorem C110_ncom_nonempty (total : ℕ) (good : ℕ → Bool) (lat lon : ℕ → ℚ) (targets : List (ℚ × ℚ))
    (query : List ℕ) (ht : targets ≠ [])
    (hin : ∀ i ∈ query, i < ((List.range total).filter good).length) (hne : query ≠ []) :
    ∃ l, ncomNodes total good lat lon targets query = some l ∧ l ≠ [] := by
  have hopt : ∀ f : ℚ × ℚ → ℚ, (∃ a, (targets.map f).min? = some a) ∧ ∃ a, (targets.map f).max? = some a := by
    intro f
    constructor
    · cases h : (targets.map f).min? with
      | none => rw [List.min?_eq_none_iff, List.map_eq_nil_iff] at h; exact absurd h ht
      | some a => exact ⟨a, rfl⟩
    · cases h : (targets.map f).max? with
      | none => rw [List.max?_eq_none_iff, List.map_eq_nil_iff] at h; exact absurd h ht
      | some a => exact ⟨a, rfl⟩
  obtain ⟨⟨a, ha⟩, b, hb⟩ := hopt (·.1)
  obtain ⟨⟨c, hc⟩, d, hd⟩ := hopt (·.2)
  have hq : ∀ qs : List ℕ, (∀ i ∈ qs, i < ((List.range total).filter good).length) →
      ∃ nn, qs.mapM (((List.range total).filter good)[·]?) = some nn ∧ nn.length = qs.length := by
    intro qs
    induction qs with
    | nil => exact fun _ => ⟨[], by simp, rfl⟩
    | cons q qs ih =>
      intro h
      obtain ⟨nn, e, hl⟩ := ih fun i hi => h i (List.mem_cons_of_mem _ hi)
      have := List.getElem?_eq_getElem (h q (by simp))
      exact ⟨((List.range total).filter good)[q]'(h q (by simp)) :: nn, by
        rw [List.mapM_cons, this, e]; rfl, by simp [hl]⟩
  obtain ⟨nn, e, hl⟩ := hq query hin
  have hnn : nn ≠ [] := by
    intro hnil; rw [hnil] at hl; exact hne (List.length_eq_zero_iff.1 hl.symm)
  obtain ⟨n, hn⟩ := List.exists_mem_of_ne_nil _ hnn
  have hn' := (mapM_getElem_mem e).1 n hn
  rw [List.mem_filter, List.mem_range] at hn'
  unfold ncomNodes ncomBox
  simp only [ha, hb, hc, hd, e, Option.bind_eq_bind, Option.bind_some, Option.pure_def]
  split_ifs with hnil
  · exfalso
    rw [List.filter_eq_nil_iff] at hnil
    have := hnil n (List.mem_range.2 hn'.1)
    simp [hn] at this
  · exact ⟨_, rfl, hnil⟩

/-- Six nodes in two columns (longitudes 0 and 1) and three rows (latitudes 0, 1, 2); two triangles in
each of the two cells. -/
def ladder : List (List ℕ) := [[0, 1, 2], [1, 2, 3], [2, 3, 4], [3, 4, 5]]

/-- Latitude of the nodes. -/
def ladderLat (n : ℕ) : ℚ := (n / 2 : ℕ)

/-- Longitude of the nodes. -/
def ladderLon (n : ℕ) : ℚ := (n % 2 : ℕ)

/-- C110 fails for the other readers where all triangles of the targets are on land: with a target in
the lowest triangle and land in its three corners there is no source point, and the reader stops with
an error, although node 3 of the grid has data. -/
theorem C110_land_violated :
    genericPoints (subsetNodes ladder [some 0]) (fun n => decide (n = 3 ∨ n = 4 ∨ n = 5)) ladderLat
      ladderLon = [] := by
  have : subsetNodes ladder [some 0] = [0, 1, 2] := by decide +kernel
  rw [this]
  decide +kernel

/-- C110 fails: with another target in the uppermost triangle (a different partition of the mesh) the
same target is filled from node 3, 4 or 5 and the run continues. -/
theorem C110_partition_violated :
    genericPoints (subsetNodes ladder [some 0, some 3]) (fun n => decide (n = 3 ∨ n = 4 ∨ n = 5))
      ladderLat ladderLon = [(1, 1), (2, 0), (2, 1)] := by
  have : subsetNodes ladder [some 0, some 3] = [0, 1, 2, 3, 4, 5] := by decide +kernel
  rw [this]
  decide +kernel

/-- C110 fails for targets outside the grid: with all targets outside, the values are filled from the
last triangle of the triangulation.  Here the target (-1, 0) gets the value of node 3, 4 or 5, and
node 0 at (0, 0), which has data, is nearer than any of them. -/
theorem C110_outside_violated :
    subsetNodes ladder [none] = [3, 4, 5] ∧
    ∀ j n, IsNearest (genericPoints (subsetNodes ladder [none]) (fun _ => true) ladderLat ladderLon)
      (-1, 0) j → (subsetNodes ladder [none])[j]? = some n →
      dist2 (ladderLat 0, ladderLon 0) (-1, 0) < dist2 (ladderLat n, ladderLon n) (-1, 0) := by
  have hs : subsetNodes ladder [none] = [3, 4, 5] := by decide +kernel
  refine ⟨hs, ?_⟩
  rw [hs]
  intro j n _ hn
  have hm : n ∈ [3, 4, 5] := List.mem_of_getElem? hn
  simp only [List.mem_cons, List.not_mem_nil, or_false] at hm
  rcases hm with rfl | rfl | rfl <;> decide +kernel

/-- C110 fails for NCOM data on a grid coarser than 0.2 degrees: of the cell around a target only the
nearest corner is used, and the value of that corner is not interpolated. -/
theorem C110_ncom_coarse_violated :
    ncomNodes 4 (fun _ => true) ladderLat ladderLon [(2 / 5, 2 / 5)] [0] = some [0] := by
  decide +kernel

/-- The hypotheses of the NCOM theorems hold for a target below the ladder. -/
example : ncomNodes 6 (fun n => decide (n ≠ 0)) ladderLat ladderLon [(-1, 1)] [0] = some [1] ∧
    IsNearest (((List.range 6).filter fun n => decide (n ≠ 0)).map fun n =>
      (ladderLat n, ladderLon n)) (-1, 1) 0 := by
  refine ⟨by decide +kernel, (0, 1), by decide +kernel, ?_⟩
  intro q hq
  have : q ∈ ([(0, 1), (1, 0), (1, 1), (2, 0), (2, 1)] : List (ℚ × ℚ)) := by
    have e : (((List.range 6).filter fun n => decide (n ≠ 0)).map fun n =>
        (ladderLat n, ladderLon n)) = [(0, 1), (1, 0), (1, 1), (2, 0), (2, 1)] := by decide +kernel
    rwa [e] at hq
  simp only [List.mem_cons, List.not_mem_nil, or_false] at this
  rcases this with rfl | rfl | rfl | rfl | rfl <;> decide +kernel

/-! ### C110: latitude-longitude files -/

/-- C110: one-dimensional coordinates: row `r`, column `c` of the grid has the `r`-th latitude and the
`c`-th longitude, so that variables are stored as (time, latitude, longitude). -/
theorem C110_latlon (lat lon : List ℚ) :
    ∃ y x, latLonArrays (.vec lat) (.vec lon) = .ok (y, x) ∧ y.length = lat.length ∧
      x.length = lat.length ∧
      ∀ r c (hr : r < lat.length) (hc : c < lon.length),
        (y[r]?).bind (·[c]?) = some lat[r] ∧ (x[r]?).bind (·[c]?) = some lon[c] := by
  refine ⟨lat.map fun y => lon.map fun _ => y, lat.map fun _ => lon, by
    simp [latLonArrays, Coord.is1d, Coord.flat], by simp, by simp, fun r c hr hc => ?_⟩
  simp [hr, hc]

/-- C110: two-dimensional coordinates are used as they are. -/
theorem C110_latlon_2d (lat lon : List (List ℚ)) :
    latLonArrays (.mat lat) (.mat lon) = .ok (lat, lon) := by
  simp [latLonArrays, Coord.is1d]

/-- C110 fails for one-dimensional latitudes with two-dimensional longitudes: the check compares the
number of dimensions of the latitudes with itself, the file is accepted, and the grid has more columns
than the data. -/
theorem C110_mixed_violated :
    latLonArrays (.vec [50, 51]) (.mat [[3, 4], [3, 4]]) =
      .ok ([[50, 50, 50, 50], [51, 51, 51, 51]], [[3, 4, 3, 4], [3, 4, 3, 4]]) := by
  decide +kernel

/-! ### C111: fields -/

/-- C111: with field names and two components given, every scalar field gets its own variable and the
vector field the rotated components, even if a component is also one of the fields. -/
theorem C111_generic {α : Type} (names : List String) (e n : String) (rot : α → α → α × α)
    (read : String → α) :
    genericSet names (some [e, n]) rot read = some (names.map read, some (rot (read e) (read n))) := by
  have hidx : ∀ c ∈ names ++ [e, n], ((names ++ [e, n]).map read)[(names ++ [e, n]).idxOf c]? =
      some (read c) := by
    intro c hc
    rw [List.getElem?_map, List.getElem?_idxOf hc]; rfl
  have hsc : ∀ l : List String, ∀ rest : List String,
      (List.range l.length).mapM (((l ++ rest).map read)[·]?) = some (l.map read) := by
    intro l rest
    have : ∀ ks : List ℕ, (∀ k ∈ ks, k < l.length) →
        ks.mapM (((l ++ rest).map read)[·]?) = some (ks.map fun k => read (l.getD k "")) := by
      intro ks
      induction ks with
      | nil => intro _; simp
      | cons k ks ih =>
        intro h
        have hk := h k (by simp)
        rw [List.mapM_cons, ih fun i hi => h i (List.mem_cons_of_mem _ hi)]
        have : ((l ++ rest).map read)[k]? = some (read (l.getD k "")) := by
          rw [List.getElem?_map, List.getElem?_append_left hk, List.getElem?_eq_getElem hk]
          simp [hk]
        rw [this]; rfl
    rw [this _ fun k hk => List.mem_range.1 hk]
    congr 1
    apply List.ext_getElem?
    intro i
    by_cases hi : i < l.length
    · simp [hi]
    · simp [hi]
  unfold genericSet genericRead
  simp only [List.map_cons, List.map_nil]
  rw [hidx e (by simp), hidx n (by simp), hsc]
  rfl

/-- C111: without components the vector field is left alone. -/
theorem C111_generic_scalar {α : Type} (names : List String) (rot : α → α → α × α) (read : String → α) :
    genericSet names none rot read = some (names.map read, none) := by
  have : ∀ ks : List ℕ, (∀ k ∈ ks, k < names.length) →
      ks.mapM ((names.map read)[·]?) = some (ks.map fun k => read (names.getD k "")) := by
    intro ks
    induction ks with
    | nil => intro _; simp
    | cons k ks ih =>
      intro h
      have hk := h k (by simp)
      rw [List.mapM_cons, ih fun i hi => h i (List.mem_cons_of_mem _ hi)]
      have : (names.map read)[k]? = some (read (names.getD k "")) := by
        rw [List.getElem?_map, List.getElem?_eq_getElem hk]
        simp [hk]
      rw [this]; rfl
  unfold genericSet genericRead
  simp only [Option.pure_def, Option.bind_eq_bind, Option.bind_some]
  rw [this _ fun k hk => List.mem_range.1 hk]
  simp only [Option.bind_some, Option.some.injEq, Prod.mk.injEq, and_true]
  apply List.ext_getElem?
  intro i
  by_cases hi : i < names.length
  · simp [hi]
  · simp [hi]

/-- C111: NCOM fields with distinct names: both velocity components are rotated together, and every
other field gets its own variable; no field is left out and nothing else is written. -/
theorem C111_ncom {α : Type} (names : List String) (hnd : names.Nodup) (rot : α → α → α × α)
    (read : String → α) (hu : "U_Velocity" ∈ names) (hv : "V_Velocity" ∈ names) :
    ncomSet names rot read "U_Velocity" = some (rot (read "U_Velocity") (read "V_Velocity")).1 ∧
    ncomSet names rot read "V_Velocity" = some (rot (read "U_Velocity") (read "V_Velocity")).2 ∧
    (∀ n ∈ names, n ≠ "U_Velocity" → n ≠ "V_Velocity" → ncomSet names rot read n = some (read n)) ∧
    ∀ n, n ∉ names → ncomSet names rot read n = none := by
  have hmem : ∀ n, n ∈ (names.erase "U_Velocity").erase "V_Velocity" ↔
      n ≠ "V_Velocity" ∧ n ≠ "U_Velocity" ∧ n ∈ names := by
    intro n
    rw [(hnd.erase _).mem_erase_iff, hnd.mem_erase_iff]
  unfold ncomSet
  simp only [hu, hv, decide_true, Bool.and_self, if_true, hmem]
  refine ⟨by simp, by simp, ?_, ?_⟩
  · intro n hn h1 h2
    simp [hn, h1, h2]
  · intro n hn
    have h1 : n ≠ "U_Velocity" := fun h => hn (h ▸ hu)
    have h2 : n ≠ "V_Velocity" := fun h => hn (h ▸ hv)
    simp [hn, h1, h2]

/-- C111 fails for one velocity component without the other: it is written as it is in the file,
without rotation. -/
theorem C111_single_violated {α : Type} (names : List String) (rot : α → α → α × α) (read : String → α)
    (hu : "U_Velocity" ∈ names) (hv : "V_Velocity" ∉ names) :
    ncomSet names rot read "U_Velocity" = some (read "U_Velocity") := by
  simp [ncomSet, hu, hv]

/-- C111: only the surface elevation is read on the two-dimensional grid. -/
theorem C111_ncom_grid (f : String) : ncomIs2d f = true ↔ f = "ssh" := by simp [ncomIs2d]

/-! ### C111: times -/

theorem last_uniform (a h : ℚ) (n : ℕ) (hn : 0 < n) :
    ((List.range n).map fun i : ℕ => a + i * h).getLast? = some (a + ((n : ℚ) - 1) * h) := by
  obtain ⟨m, rfl⟩ : ∃ m, n = m + 1 := ⟨n - 1, by omega⟩
  rw [List.range_succ, List.map_append, List.map_singleton, List.getLast?_append]
  simp

theorem head_uniform (a h : ℚ) (n : ℕ) (hn : 0 < n) :
    ((List.range n).map fun i : ℕ => a + i * h).head? = some a := by
  obtain ⟨m, rfl⟩ : ∃ m, n = m + 1 := ⟨n - 1, by omega⟩
  rw [List.range_succ_eq_map]
  simp

/-- C111: of a forecast with time stamps at a regular interval `h` exactly the `⌊D/h⌋` first are kept
(all, if there are fewer). -/
theorem C111_duration (a h D : ℚ) (hh : 0 < h) (n : ℕ) (hn : 2 ≤ n) (hD : h ≤ D) :
    atmTimes ((List.range n).map fun i : ℕ => a + i * h) (some D) =
      some ((List.range (min ⌊D / h⌋.toNat n)).map fun i : ℕ => a + i * h) := by
  unfold atmTimes
  rw [last_uniform a h n (by omega), head_uniform a h n (by omega)]
  simp only [List.length_map, List.length_range]
  have hn1 : (n : ℚ) - 1 ≠ 0 := by
    have : (2 : ℚ) ≤ n := by exact_mod_cast hn
    linarith
  have hstep : (a + ((n : ℚ) - 1) * h - a) / ((n : ℚ) - 1) = h := by field_simp; ring
  rw [hstep]
  have h1 : 1 ≤ D / h := by rwa [le_div_iff₀ hh, one_mul]
  have hfl : 1 ≤ ⌊D / h⌋ := Int.le_floor.2 (by exact_mod_cast h1)
  have h0 : (0 : ℚ) ≤ D / h := by linarith
  rw [if_neg (by push Not; exact ⟨by omega, hh.ne'⟩)]
  simp only [if_pos h0, if_pos (by omega : 0 ≤ ⌊D / h⌋)]
  have htake : ((List.range n).map fun i : ℕ => a + i * h).take ⌊D / h⌋.toNat =
      (List.range (min ⌊D / h⌋.toNat n)).map fun i : ℕ => a + i * h := by
    rw [← List.map_take, List.take_range]
  rw [htake, if_neg]
  intro hnil
  rw [List.map_eq_nil_iff, List.range_eq_nil] at hnil
  omega

/-- C111: the time stamps kept lie within the duration asked for, and with the next forecast starting
after that duration no time stamp is covered twice. -/
theorem C111_duration_span (a h D : ℚ) (hh : 0 < h) (n : ℕ) (hn : 2 ≤ n) (hD : h ≤ D) (l : List ℚ)
    (hl : atmTimes ((List.range n).map fun i : ℕ => a + i * h) (some D) = some l) :
    ∀ t ∈ l, a ≤ t ∧ t ≤ a + D - h := by
  rw [C111_duration a h D hh n hn hD] at hl
  rw [← Option.some.inj hl]
  intro t ht
  obtain ⟨i, hi, rfl⟩ := List.mem_map.1 ht
  rw [List.mem_range] at hi
  have hi' : (i : ℤ) + 1 ≤ ⌊D / h⌋ := by omega
  have h2 : ((i : ℚ) + 1) ≤ D / h := by
    have := Int.le_floor.1 hi'
    exact_mod_cast this
  rw [le_div_iff₀ hh] at h2
  have : (0 : ℚ) ≤ i * h := by positivity
  constructor <;> linarith

/-- C111: if the duration is a whole number of steps and the file is long enough, the last time stamp
kept and the first of the next forecast are one step apart. -/
theorem C111_duration_continues (a h : ℚ) (hh : 0 < h) (k n : ℕ) (hk : 1 ≤ k) (hkn : k ≤ n)
    (hn : 2 ≤ n) (l : List ℚ)
    (hl : atmTimes ((List.range n).map fun i : ℕ => a + i * h) (some (k * h)) = some l) :
    l.length = k ∧ l.getLast? = some (a + k * h - h) := by
  have hk1 : (1 : ℚ) ≤ k := by exact_mod_cast hk
  rw [C111_duration a h (k * h) hh n hn (by nlinarith)] at hl
  have : ⌊(k * h : ℚ) / h⌋.toNat = k := by
    rw [mul_div_assoc, div_self hh.ne', mul_one]; simp
  rw [this, Nat.min_eq_left hkn] at hl
  rw [← Option.some.inj hl, last_uniform a h k (by omega)]
  refine ⟨by simp, ?_⟩
  congr 1; ring

/-- C111: without a duration all time stamps are kept. -/
theorem C111_all (times : List ℚ) (h : times ≠ []) : atmTimes times none = some times := by
  simp [atmTimes, h]

/-- C111 fails for irregular time stamps: the number of time stamps is found from the mean interval, and
with stamps at 0, 1, 2, 9 hours and a duration of 6 hours the stamps at 0 and 1 h are kept and the
stamp at 2 h is not; with stamps at 0, 7, 8, 9 hours the stamp at 7 h is kept although it lies outside. -/
theorem C111_irregular_violated :
    atmTimes [0, 1, 2, 9] (some 6) = some [0, 1] ∧ atmTimes [0, 7, 8, 9] (some 6) = some [0, 7] := by
  constructor <;> decide +kernel

/-- C111 fails for files with a single time stamp and for a duration shorter than the interval: the
file cannot be read. -/
theorem C111_short_violated (a b D : ℚ) (h0 : 0 ≤ D) (hD : D < b - a) :
    atmTimes [a] (some D) = none ∧ atmTimes [a, b] (some D) = none := by
  constructor
  · simp [atmTimes]
  · have hpos : 0 < b - a := by linarith
    have : ⌊D / (b - a)⌋ = 0 := by
      rw [Int.floor_eq_zero_iff]
      exact ⟨by positivity, by rwa [div_lt_one hpos]⟩
    unfold atmTimes
    simp only [List.head?_cons, List.getLast?_cons_cons, List.getLast?_singleton, List.length_cons,
      List.length_nil]
    have h0' : (0 : ℚ) ≤ D / (b - a) := by positivity
    have e : (b - a) / (((0 + 1 + 1 : ℕ) : ℚ) - 1) = b - a := by norm_num
    simp only [e, if_pos h0', this]
    simp

/-- The hypotheses of the duration theorems hold for hourly forecasts of two days cut to one day. -/
example : ∃ l, atmTimes ((List.range 48).map fun i : ℕ => (0 : ℚ) + i * 3600) (some (24 * 3600)) = some l ∧
    l.length = 24 := by
  refine ⟨_, C111_duration 0 3600 (24 * 3600) (by norm_num) 48 (by norm_num) (by norm_num), ?_⟩
  rw [mul_div_assoc, div_self (by norm_num : (3600 : ℚ) ≠ 0)]
  norm_num
  rfl

end Verif.Source
