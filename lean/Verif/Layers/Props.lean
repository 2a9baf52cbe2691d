import Verif.Layers.Lemmas

/-!
C95: copying between the 2D and the 3D mesh.  C97: mesh consistency metric.
-/

namespace Verif.Layers

/-- Nodes of the 3D space coincide only above the same node of the 2D space. -/
def Above (m : Mesh) : Prop := ∀ k l i k' l' i', k < m.cols → l < m.layers → i < m.n * m.v →
  k' < m.cols → l' < m.layers → i' < m.n * m.v →
  m.map3 k l i = m.map3 k' l' i' → m.map2 k (i / m.v) = m.map2 k' (i' / m.v)

/-- In a layer, the end points of the vertical elements above one 2D node coincide. -/
def Joined (m : Mesh) : Prop := ∀ k l d k' d' e, k < m.cols → l < m.layers → d < m.n →
  k' < m.cols → d' < m.n → e < 2 → m.map2 k d = m.map2 k' d' →
  m.map3 k l (d * m.v + e) = m.map3 k' l (d' * m.v + e)

/-- Every cell is visited, in any order. -/
def AllCells (m : Mesh) (cells : List (ℕ × ℕ)) : Prop :=
  ∀ k l, (k, l) ∈ cells ↔ k < m.cols ∧ l < m.layers

/-- Every column is visited, in any order. -/
def AllCols (m : Mesh) (cells : List ℕ) : Prop := ∀ k, k ∈ cells ↔ k < m.cols

theorem C95_dg_above (n v cols layers : ℕ) : Above (dgMesh n v cols layers) := by
  intro k l i k' l' i' hk hl hi hk' hl' hi' h
  simp only [dgMesh] at *
  have hp : 0 < n * v := by omega
  have h1 : ((k * layers + l) * (n * v) + i) / (n * v) = k * layers + l := by
    rw [Nat.add_comm, Nat.add_mul_div_right _ _ hp, Nat.div_eq_of_lt hi, Nat.zero_add]
  have h2 : ((k' * layers + l') * (n * v) + i') / (n * v) = k' * layers + l' := by
    rw [Nat.add_comm, Nat.add_mul_div_right _ _ hp, Nat.div_eq_of_lt hi', Nat.zero_add]
  have h3 : ((k * layers + l) * (n * v) + i) % (n * v) = i := by
    rw [Nat.add_comm, Nat.add_mul_mod_self_right, Nat.mod_eq_of_lt hi]
  have h4 : ((k' * layers + l') * (n * v) + i') % (n * v) = i' := by
    rw [Nat.add_comm, Nat.add_mul_mod_self_right, Nat.mod_eq_of_lt hi']
  have e1 : k * layers + l = k' * layers + l' := by rw [← h1, ← h2, h]
  have e2 : i = i' := by rw [← h3, ← h4, h]
  have hlp : 0 < layers := by omega
  have e3 : k = k' := by
    have a : (k * layers + l) / layers = k := by
      rw [Nat.add_comm, Nat.add_mul_div_right _ _ hlp, Nat.div_eq_of_lt hl, Nat.zero_add]
    have b : (k' * layers + l') / layers = k' := by
      rw [Nat.add_comm, Nat.add_mul_div_right _ _ hlp, Nat.div_eq_of_lt hl', Nat.zero_add]
    rw [← a, ← b, e1]
  rw [e2, e3]

theorem C95_dg_joined (n v cols layers : ℕ) : Joined (dgMesh n v cols layers) := by
  intro k l d k' d' e hk hl hd hk' hd' he h
  simp only [dgMesh] at *
  have hp : 0 < n := by omega
  have h1 : (k * n + d) / n = k := by
    rw [Nat.add_comm, Nat.add_mul_div_right _ _ hp, Nat.div_eq_of_lt hd, Nat.zero_add]
  have h2 : (k' * n + d') / n = k' := by
    rw [Nat.add_comm, Nat.add_mul_div_right _ _ hp, Nat.div_eq_of_lt hd', Nat.zero_add]
  have h3 : (k * n + d) % n = d := by
    rw [Nat.add_comm, Nat.add_mul_mod_self_right, Nat.mod_eq_of_lt hd]
  have h4 : (k' * n + d') % n = d' := by
    rw [Nat.add_comm, Nat.add_mul_mod_self_right, Nat.mod_eq_of_lt hd']
  have e1 : k = k' := by rw [← h1, ← h2, h]
  have e2 : d = d' := by rw [← h3, ← h4, h]
  rw [e1, e2]

theorem C95_cg_above (n v cols layers : ℕ) (map2 : ℕ → ℕ → ℕ) :
    Above (cgMesh n v cols layers map2) := by
  intro k l i k' l' i' hk hl hi hk' hl' hi' h
  simp only [cgMesh] at *
  have hv : 0 < v := Nat.pos_of_ne_zero fun h0 => by simp [h0] at hi
  have key : ∀ l i, l < layers →
      l * (v - 1) + (if i % v = 0 then 0 else if i % v = 1 then v - 1 else i % v - 1)
        < (v - 1) * layers + 1 := by
    intro l i hl
    have hm : i % v < v := Nat.mod_lt _ hv
    have h1 : (if i % v = 0 then 0 else if i % v = 1 then v - 1 else i % v - 1) ≤ v - 1 := by
      split
      · omega
      · split <;> omega
    have h2 : (l + 1) * (v - 1) ≤ layers * (v - 1) := Nat.mul_le_mul_right _ hl
    have h3 : (l + 1) * (v - 1) = l * (v - 1) + (v - 1) := by ring
    have h4 : layers * (v - 1) = (v - 1) * layers := Nat.mul_comm _ _
    omega
  have hd : ∀ a b s : ℕ, b < s → (a * s + b) / s = a := fun a b s hb => by
    rw [Nat.add_comm, Nat.add_mul_div_right _ _ (by omega), Nat.div_eq_of_lt hb, Nat.zero_add]
  rw [Nat.add_assoc, Nat.add_assoc] at h
  rw [← hd (map2 k (i / v)) _ _ (key l i hl), ← hd (map2 k' (i' / v)) _ _ (key l' i' hl'), h]

theorem C95_cg_joined (n v cols layers : ℕ) (hv : 2 ≤ v) (map2 : ℕ → ℕ → ℕ) :
    Joined (cgMesh n v cols layers map2) := by
  intro k l d k' d' e hk hl hd hk' hd' he h
  simp only [cgMesh] at *
  have h1 : ∀ d, (d * v + e) / v = d := fun d => by
    rw [Nat.add_comm, Nat.add_mul_div_right _ _ (by omega), Nat.div_eq_of_lt (by omega), Nat.zero_add]
  have h2 : ∀ d, (d * v + e) % v = e := fun d => by
    rw [Nat.add_comm, Nat.add_mul_mod_self_right, Nat.mod_eq_of_lt (by omega)]
  rw [h1, h1, h2, h2, h]

/-- Expanding a 2D field gives, at every node of the 3D space, the value of the 2D node below, whatever
the order of the cells and the previous contents; the 3D field may have more components (velocities have
two in 2D and three in 3D). -/
theorem C95_expand (m : Mesh) (dim2 dim3 : ℕ) (hle : dim2 ≤ dim3) (ha : Above m) (cells : List (ℕ × ℕ))
    (hc : AllCells m cells) (f out : Dat) (k l i c : ℕ) (hk : k < m.cols) (hl : l < m.layers)
    (hi : i < m.n * m.v) (hd : c < dim2) :
    expand m dim2 dim3 cells f out (m.map3 k l i) c = f (m.map2 k (i / m.v)) c := by
  have hv : 0 < m.v := Nat.pos_of_ne_zero fun h0 => by simp [h0] at hi
  classical
  refine loop_value (g := fun x c => if h : ∃ k l i, k < m.cols ∧ l < m.layers ∧ i < m.n * m.v ∧
      m.map3 k l i = x then
        (if c < dim2 then f (m.map2 h.choose (h.choose_spec.choose_spec.choose / m.v)) c else none) else none)
    (m.n * m.v) dim3 (fun kl : ℕ × ℕ => m.map3 kl.1 kl.2) _ cells ?_ out _ c (k, l)
    ((hc k l).2 ⟨hk, hl⟩) i hi (by omega) rfl |>.trans ?_
  · rintro ⟨k', l'⟩ hmem i' c' hi' hc'
    obtain ⟨hk', hl'⟩ := (hc k' l').1 hmem
    have hex : ∃ k l i, k < m.cols ∧ l < m.layers ∧ i < m.n * m.v ∧ m.map3 k l i = m.map3 k' l' i' :=
      ⟨k', l', i', hk', hl', hi', rfl⟩
    simp only [dif_pos hex]
    by_cases hc2 : c' < dim2
    swap
    · rw [if_neg hc2, expandKernel_rest m.n dim2 dim3 m.v hle _ _ i' c' (by omega) hc']
      rfl
    rw [if_pos hc2, expandKernel_get m.n dim2 dim3 m.v hle hv _ _ i' c' hi' hc2]
    have hs := hex.choose_spec.choose_spec.choose_spec
    rw [ha _ _ _ _ _ _ hs.1 hs.2.1 hs.2.2.1 hk' hl' hi' hs.2.2.2]
    have hdm : i' / m.v < m.n := Nat.div_lt_of_lt_mul (by rw [Nat.mul_comm]; exact hi')
    exact gather_get m.n dim2 _ f _ c' hdm hc2
  · have hex : ∃ k' l' i', k' < m.cols ∧ l' < m.layers ∧ i' < m.n * m.v ∧
        m.map3 k' l' i' = m.map3 k l i := ⟨k, l, i, hk, hl, hi, rfl⟩
    simp only [dif_pos hex]
    have hs := hex.choose_spec.choose_spec.choose_spec
    rw [if_pos hd, ha _ _ _ _ _ _ hs.1 hs.2.1 hs.2.2.1 hk hl hi hs.2.2.2]

/-- What the documentation says is extracted from the element of a column: the bottom node, the top node
or the mean of both. -/
def wanted (bot top : Option ℚ) : Facet → Option ℚ
  | .bottom => bot
  | .top => top
  | .average => mean2 bot top

theorem kernelOf_get (m : Mesh) (dim2 dim3 : ℕ) (hle : dim2 ≤ dim3) (hv : 2 ≤ m.v) (k : ℕ) (g : Dat)
    (top : Bool) (ef : Option Facet) (d c : ℕ) (hd : d < m.n) (hc : c < dim2) :
    kernelOf m dim2 dim3 (facetOf top ef) (gather (m.n * m.v) dim3 (m.map3 k (layerOf m top)) g)
      (dim2 * d + c) = wanted (g (m.map3 k (if top then m.layers - 1 else 0) (d * m.v)) c)
        (g (m.map3 k (if top then m.layers - 1 else 0) (d * m.v + 1)) c)
        (ef.getD (if top then .top else .bottom)) := by
  rw [kernelOf_get' m dim2 dim3 hle hv _ g _ d c hd hc]
  unfold facetOf layerOf
  cases ef.getD (if top = true then Facet.top else Facet.bottom) <;> rfl

/-- Extraction gives, at every 2D node, the value of the chosen facet of the uppermost or the lowest
element. -/
theorem C95_extract (m : Mesh) (dim2 dim3 : ℕ) (hle : dim2 ≤ dim3) (hv : 2 ≤ m.v) (hL : 0 < m.layers)
    (hj : Joined m) (cells : List ℕ) (hc : AllCols m cells) (top : Bool) (ef : Option Facet) (g out : Dat)
    (k d c : ℕ) (hk : k < m.cols) (hd : d < m.n) (hdim : c < dim2) :
    extract m dim2 dim3 cells top ef g out (m.map2 k d) c =
      wanted (g (m.map3 k (if top then m.layers - 1 else 0) (d * m.v)) c)
        (g (m.map3 k (if top then m.layers - 1 else 0) (d * m.v + 1)) c)
        (ef.getD (if top then .top else .bottom)) := by
  classical
  set L := if top then m.layers - 1 else 0 with hLd
  have hLl : L < m.layers := by rw [hLd]; split <;> omega
  let G : ℕ → ℕ → Option ℚ := fun x c => if h : ∃ k d, k < m.cols ∧ d < m.n ∧ m.map2 k d = x then
      wanted (g (m.map3 h.choose L (h.choose_spec.choose * m.v)) c)
        (g (m.map3 h.choose L (h.choose_spec.choose * m.v + 1)) c)
        (ef.getD (if top then .top else .bottom)) else none
  have hG : ∀ k d c, k < m.cols → d < m.n → G (m.map2 k d) c =
      wanted (g (m.map3 k L (d * m.v)) c) (g (m.map3 k L (d * m.v + 1)) c)
        (ef.getD (if top then .top else .bottom)) := by
    intro k d c hk hd
    have hex : ∃ k' d', k' < m.cols ∧ d' < m.n ∧ m.map2 k' d' = m.map2 k d := ⟨k, d, hk, hd, rfl⟩
    simp only [G, dif_pos hex]
    have hs := hex.choose_spec.choose_spec
    have h0 := hj _ L _ _ _ 0 hs.1 hLl hs.2.1 hk hd (by omega) hs.2.2
    have h1 := hj _ L _ _ _ 1 hs.1 hLl hs.2.1 hk hd (by omega) hs.2.2
    rw [Nat.add_zero, Nat.add_zero] at h0
    rw [h0, h1]
  refine (loop_value (g := G) m.n dim2 (fun k : ℕ => m.map2 k) _ cells ?_ out _ c k
    ((hc k).2 hk) d hd hdim rfl).trans (hG k d c hk hd)
  intro k' hmem d' c' hd' hc'
  have hk' := (hc k').1 hmem
  rw [hG k' d' c' hk' hd']
  exact kernelOf_get m dim2 dim3 hle hv k' g top ef d' c' hd' hc'

/-- Expanding a field and extracting it, at either boundary and from any facet, gives the field back. -/
theorem C95_roundtrip (m : Mesh) (dim2 dim3 : ℕ) (hle : dim2 ≤ dim3) (hv : 2 ≤ m.v) (hL : 0 < m.layers)
    (ha : Above m) (cells : List (ℕ × ℕ)) (hc : AllCells m cells) (cols : List ℕ) (hcs : AllCols m cols)
    (top : Bool) (ef : Option Facet) (f : ℕ → ℕ → ℚ) (out3 out2 : Dat)
    (k d c : ℕ) (hk : k < m.cols) (hd : d < m.n) (hdim : c < dim2) :
    extract m dim2 dim3 cols top ef (expand m dim2 dim3 cells (fun x c => some (f x c)) out3) out2
      (m.map2 k d) c = some (f (m.map2 k d) c) := by
  set L := if top then m.layers - 1 else 0 with hLd
  have hLl : L < m.layers := by rw [hLd]; split <;> omega
  refine loop_value (g := fun x c => some (f x c)) m.n dim2 (fun k : ℕ => m.map2 k) _ cols ?_ out2 _ c k
    ((hcs k).2 hk) d hd hdim rfl
  intro k' hmem d' c' hd' hc'
  have hk' := (hcs k').1 hmem
  rw [kernelOf_get m dim2 dim3 hle hv k' _ top ef d' c' hd' hc']
  have hlt : ∀ e < 2, d' * m.v + e < m.n * m.v := fun e he => by
    have : (d' + 1) * m.v ≤ m.n * m.v := Nat.mul_le_mul_right _ hd'
    have h2 : (d' + 1) * m.v = d' * m.v + m.v := by ring
    omega
  have hdv : ∀ e < 2, (d' * m.v + e) / m.v = d' := fun e he => by
    rw [Nat.add_comm, Nat.add_mul_div_right _ _ (by omega), Nat.div_eq_of_lt (by omega), Nat.zero_add]
  have e0 := C95_expand m dim2 dim3 hle ha cells hc (fun x c => some (f x c)) out3 k' L (d' * m.v + 0) c' hk' hLl
    (hlt 0 (by omega)) hc'
  have e1 := C95_expand m dim2 dim3 hle ha cells hc (fun x c => some (f x c)) out3 k' L (d' * m.v + 1) c' hk' hLl
    (hlt 1 (by omega)) hc'
  rw [hdv 0 (by omega), Nat.add_zero] at e0
  rw [hdv 1 (by omega)] at e1
  rw [e0, e1]
  cases ef.getD (if top then Facet.top else Facet.bottom)
  · rfl
  · rfl
  · simp only [wanted, mean2, Option.bind_some, Option.map_some]
    congr 1
    ring

/-- The example: two columns of two triangular prisms, linear discontinuous velocities. -/
example : extract (dgMesh 3 2 2 2) 2 3 [1, 0] true none
    (expand (dgMesh 3 2 2 2) 2 3 [(1, 0), (0, 1), (0, 0), (1, 1)] (fun x c => some (x + 10 * c)) fun _ _ => none)
    (fun _ _ => none) 4 1 = some 14 :=
  (C95_roundtrip (dgMesh 3 2 2 2) 2 3 (by decide) (by decide) (by decide) (C95_dg_above _ _ _ _) _
    (fun k l => by
      simp only [dgMesh, List.mem_cons, List.not_mem_nil, Prod.mk.injEq, or_false]
      omega) _
    (fun k => by
      simp only [dgMesh, List.mem_cons, List.not_mem_nil, or_false]
      omega) true none (fun x c => x + 10 * c) (fun _ _ => none) (fun _ _ => none)
    1 1 1 (by decide) (by decide) (by decide)).trans (by norm_num [dgMesh])

/-- Elements of degree zero in the vertical have one node: the top facet is looked for one node too far.
Whatever the fields, extraction from the top reads outside the array of the element and the result at
the last node of every column is undefined. `polynomial_degree = 0` is an accepted option, and the solver
extracts the depth averaged velocity from the top. -/
theorem C95_degree_zero_violated (n cols layers dim2 dim3 : ℕ) (hle : dim2 ≤ dim3) (hn : 0 < n)
    (f : ℕ → ℕ → ℚ) (out : Dat) (c : ℕ) (hdim : c < dim2) (hcols : 0 < cols) :
    extract (dgMesh n 1 cols layers) dim2 dim3 (List.range cols) true none (fun x c => some (f x c)) out
      (n - 1) c = none := by
  have hmap : (dgMesh n 1 cols layers).map2 0 (n - 1) = n - 1 := by simp [dgMesh]
  rw [← hmap]
  let G : ℕ → ℕ → Option ℚ := fun x c => if h : x / n < cols ∧ x % n + 1 < n then
      some (f (((x / n) * layers + (layers - 1)) * (n * 1) + (x % n + 1)) c) else none
  refine (loop_value (g := G) n dim2 (fun k : ℕ => (dgMesh n 1 cols layers).map2 k) _ (List.range cols)
    ?_ out _ c 0 (by simpa using hcols) (n - 1) (by omega) hdim rfl).trans ?_
  · intro k hmem d c' hd hc'
    have hk : k < cols := by simpa using hmem
    have h1 : (k * n + d) / n = k := by
      rw [Nat.add_comm, Nat.add_mul_div_right _ _ hn, Nat.div_eq_of_lt hd, Nat.zero_add]
    have h3 : (k * n + d) % n = d := by
      rw [Nat.add_comm, Nat.add_mul_mod_self_right, Nat.mod_eq_of_lt hd]
    have hkk := extractKernel_get n dim2 dim3 (facetMask 1 true)
      (gather (n * 1) dim3 ((dgMesh n 1 cols layers).map3 k (layers - 1)) fun x c => some (f x c))
      d c' hd hc'
    refine hkk.trans ?_
    simp only [facetMask, G, dgMesh, h1, h3, hk, true_and, Nat.mul_one, if_true, dite_eq_ite]
    by_cases h : d + 1 < n
    · rw [if_pos h, gather_get n dim3 _ _ (d + 1) c' h (by omega)]
    · rw [if_neg h]
      unfold gather
      rw [if_neg]
      have : n * dim3 ≤ dim3 * (d + 1) := by rw [Nat.mul_comm]; exact Nat.mul_le_mul_left _ (by omega)
      omega
  · have h0 : (0 * n + (n - 1)) % n = n - 1 := by
      rw [Nat.zero_mul, Nat.zero_add]
      exact Nat.mod_eq_of_lt (by omega)
    simp only [G, dgMesh, h0]
    rw [dif_neg]
    omega

/-! ### Mesh consistency -/

/-- The metric vanishes at the nodes of horizontal facets, and is never negative in an element of
positive height. -/
theorem C97_straight (n : ℕ) (hn : 0 < n) (zb zt : ℕ → ℚ) (hz : ∀ d < n, |zb d| < 10 ^ 20 ∧ |zt d| < 10 ^ 20)
    (hh : ∀ d < n, zb d < zt d) (d : ℕ) (hd : d < n) :
    0 ≤ hccTop n zb zt d ∧ 0 ≤ hccBot n zb zt d ∧
      (hccTop n zb zt d = 0 ↔ ∀ a < n, ∀ b < n, zt a = zt b) ∧
      (hccBot n zb zt d = 0 ↔ ∀ a < n, ∀ b < n, zb a = zb b) := by
  have hp : 0 < zt d - zb d := sub_pos.2 (hh d hd)
  obtain ⟨tM, htM, eT⟩ := foldMax_mem n hn zt fun d hd => (hz d hd).2
  obtain ⟨tm, htm, et⟩ := foldMin_mem n hn zt fun d hd => (hz d hd).2
  obtain ⟨bM, hbM, eB⟩ := foldMax_mem n hn zb fun d hd => (hz d hd).1
  obtain ⟨bm, hbm, eb⟩ := foldMin_mem n hn zb fun d hd => (hz d hd).1
  have m1 := le_foldMax n zt
  have m2 := foldMin_le n zt
  have m3 := le_foldMax n zb
  have m4 := foldMin_le n zb
  unfold hccTop hccBot
  refine ⟨div_nonneg ?_ hp.le, div_nonneg ?_ hp.le, ?_, ?_⟩
  · linarith [m1 tm htm, m2 tm htm]
  · linarith [m3 bm hbm, m4 bm hbm]
  · rw [div_eq_zero_iff, or_iff_left hp.ne']
    constructor
    · intro h a ha b hb
      linarith [m1 a ha, m1 b hb, m2 a ha, m2 b hb]
    · intro h
      rw [eT, et, h tM htM tm htm, sub_self]
  · rw [div_eq_zero_iff, or_iff_left hp.ne']
    constructor
    · intro h a ha b hb
      linarith [m3 a ha, m3 b hb, m4 a ha, m4 b hb]
    · intro h
      rw [eB, eb, h bM hbM bm hbm, sub_self]

/-- A metric below one guarantees that the bottom facet lies below the top facet: whichever facet is
looked at, the highest bottom node is lower than the lowest surface node. -/
theorem C97_sound (n : ℕ) (zb zt : ℕ → ℚ) (hh : ∀ d < n, zb d < zt d)
    (hR : (∀ d < n, hccBot n zb zt d < 1) ∨ (∀ d < n, hccTop n zb zt d < 1))
    (a b : ℕ) (ha : a < n) (hb : b < n) : zb a < zt b := by
  rcases hR with h | h
  · have hb' := h b hb
    unfold hccBot at hb'
    rw [div_lt_one (sub_pos.2 (hh b hb))] at hb'
    linarith [le_foldMax n zb a ha, foldMin_le n zb b hb]
  · have ha' := h a ha
    unfold hccTop at ha'
    rw [div_lt_one (sub_pos.2 (hh a ha))] at ha'
    linarith [le_foldMax n zt a ha, foldMin_le n zt b hb]

/-- In an element of uniform height the metric of both facets is the same and is one exactly when the
highest bottom node is level with the lowest surface node (below one: lower, above: higher). -/
theorem C97_level (n : ℕ) (hn : 0 < n) (h : ℚ) (hp : 0 < h) (zb zt : ℕ → ℚ) (hu : ∀ d < n, zt d = zb d + h)
    (hz : ∀ d < n, |zb d| < 10 ^ 20 ∧ |zt d| < 10 ^ 20)
    (hi lo : ℕ) (hhi : hi < n) (hlo : lo < n) (hmax : ∀ d < n, zb d ≤ zb hi)
    (hmin : ∀ d < n, zt lo ≤ zt d) (d : ℕ) (hd : d < n) :
    hccTop n zb zt d = hccBot n zb zt d ∧
      (hccBot n zb zt d = 1 ↔ zb hi = zt lo) ∧ (hccBot n zb zt d < 1 ↔ zb hi < zt lo) := by
  obtain ⟨tM, htM, eT⟩ := foldMax_mem n hn zt fun d hd => (hz d hd).2
  obtain ⟨tm, htm, et⟩ := foldMin_mem n hn zt fun d hd => (hz d hd).2
  obtain ⟨bM, hbM, eB⟩ := foldMax_mem n hn zb fun d hd => (hz d hd).1
  obtain ⟨bm, hbm, eb⟩ := foldMin_mem n hn zb fun d hd => (hz d hd).1
  have m1 := le_foldMax n zt
  have m2 := foldMin_le n zt
  have m3 := le_foldMax n zb
  have m4 := foldMin_le n zb
  have a1 : foldMax n zb = zb hi := le_antisymm (by rw [eB]; exact hmax _ hbM) (m3 hi hhi)
  have a2 : foldMin n zt = zt lo := le_antisymm (m2 lo hlo) (by rw [et]; exact hmin _ htm)
  have a3 : foldMin n zb = zb lo := le_antisymm (m4 lo hlo) (by
    rw [eb]; linarith [hmin bm hbm, hu bm hbm, hu lo hlo])
  have a4 : foldMax n zt = zt hi := le_antisymm (by
    rw [eT]; linarith [hmax tM htM, hu tM htM, hu hi hhi]) (m1 hi hhi)
  have hdd : zt d - zb d = h := by rw [hu d hd]; ring
  have l1 := hu lo hlo
  have l2 := hu hi hhi
  unfold hccTop hccBot
  rw [a1, a2, a3, a4, hdd]
  refine ⟨by congr 1; linarith, ?_, ?_⟩
  · rw [div_eq_one_iff_eq hp.ne']
    constructor <;> intro h' <;> linarith
  · rw [div_lt_one hp]
    constructor <;> intro h' <;> linarith

/-- The statement of the documentation about `R = 1` holds for elements of uniform height only: under a
flat surface, a bottom at depths 1, 2 and 3 gives the metric 2 at the shallowest node, while every bottom
node is lower than the surface by at least 1. -/
theorem C97_level_violated : ∃ zb zt : ℕ → ℚ,
    (∀ a < 3, ∀ b < 3, zb a + 1 ≤ zt b) ∧ hccBot 3 zb zt 0 = 2 := by
  refine ⟨fun d => -(d + 1), fun _ => 0, ?_, ?_⟩
  · intro a _ b _
    have : (0 : ℚ) ≤ a := Nat.cast_nonneg a
    simp only
    linarith
  · norm_num [hccBot, foldMax, foldMin, List.range_succ]

/-- The metric does not depend on where the element lies: moved vertically, it is the same. -/
theorem C97_shift (n : ℕ) (hn : 0 < n) (s : ℚ) (zb zt : ℕ → ℚ)
    (hz : ∀ d < n, |zb d| < 10 ^ 20 ∧ |zt d| < 10 ^ 20)
    (hs : ∀ d < n, |zb d + s| < 10 ^ 20 ∧ |zt d + s| < 10 ^ 20) (d : ℕ) :
    hccTop n (fun d => zb d + s) (fun d => zt d + s) d = hccTop n zb zt d ∧
      hccBot n (fun d => zb d + s) (fun d => zt d + s) d = hccBot n zb zt d := by
  have key : ∀ z : ℕ → ℚ, (∀ d < n, |z d| < 10 ^ 20) → (∀ d < n, |z d + s| < 10 ^ 20) →
      foldMax n (fun d => z d + s) = foldMax n z + s ∧ foldMin n (fun d => z d + s) = foldMin n z + s := by
    intro z h1 h2
    obtain ⟨M, hM, eM⟩ := foldMax_mem n hn z h1
    obtain ⟨M', hM', eM'⟩ := foldMax_mem n hn (fun d => z d + s) h2
    obtain ⟨m, hm, em⟩ := foldMin_mem n hn z h1
    obtain ⟨m', hm', em'⟩ := foldMin_mem n hn (fun d => z d + s) h2
    have a := le_foldMax n (fun d => z d + s) M hM
    have b := le_foldMax n z M' hM'
    have c := foldMin_le n (fun d => z d + s) m hm
    have e := foldMin_le n z m' hm'
    constructor <;> linarith
  obtain ⟨t1, t2⟩ := key zt (fun d hd => (hz d hd).2) fun d hd => (hs d hd).2
  obtain ⟨b1, b2⟩ := key zb (fun d hd => (hz d hd).1) fun d hd => (hs d hd).1
  unfold hccTop hccBot
  rw [t1, t2, b1, b2]
  constructor <;> congr 1 <;> ring

/-- An element of uniform height 1 over a bottom rising by 1: the metric is 1. -/
example : hccBot 3 (fun d => if d = 0 then -4 else -5) (fun d => if d = 0 then -3 else -4) 1 = 1 := by
  norm_num [hccBot, foldMax, foldMin, List.range_succ]

end Verif.Layers
