import Verif.Limiter.Model
import Mathlib.Tactic.Linarith
import Mathlib.Tactic.FieldSimp
import Mathlib.Tactic.Ring
import Mathlib.Tactic.NormNum
import Mathlib.Tactic.Positivity

/-!
Property C49.
-/

namespace Verif.Limiter

open Finset Classical

set_option linter.unusedSectionVars false

variable {C V ι : Type} [Fintype ι]

/-- Mean of a field over a cell of the current mesh. -/
noncomputable def cellMean (m : Mesh C V ι) (q : C → ι → ℝ) (c : C) : ℝ :=
  (∑ i, m.mass c i * q c i) / ∑ i, m.mass c i

theorem centroid_eq (m : Mesh C V ι) (q : C → ι → ℝ) (c : C) : centroid m m q c = cellMean m q c := rfl

/-- C49: the mean over every cell is kept (mesh matrix up to date). -/
theorem C49_mean (m0 m : Mesh C V ι) (td : Bool) (htd : td = true ∨ m0 = m) (order : List ι)
    (q : C → ι → ℝ) (c : C) (hv : 0 < ∑ i, m.mass c i) :
    cellMean m (apply td m0 m order q) c = cellMean m q c := by
  have hm : matrixMesh td m0 m = m := by
    unfold matrixMesh
    rcases htd with h | h
    · simp [h]
    · simp [h]
  unfold apply
  simp only [hm, centroid_eq]
  set A := alphaOf _ _ _ _ _
  have : ∑ i, m.mass c i * (cellMean m q c + A * (q c i - cellMean m q c))
      = (1 - A) * cellMean m q c * (∑ i, m.mass c i) + A * ∑ i, m.mass c i * q c i := by
    rw [mul_sum, mul_sum, ← sum_add_distrib]
    exact sum_congr rfl fun i _ => by ring
  show (∑ i, m.mass c i * (cellMean m q c + A * (q c i - cellMean m q c))) / _ = _
  rw [this]
  have h2 : ∑ i, m.mass c i * q c i = cellMean m q c * ∑ i, m.mass c i := by
    unfold cellMean; field_simp
  rw [h2]
  field_simp
  ring

/-! ### Bounds -/

theorem cellMax_ge (m : Mesh C V ι) (cbar : C → ℝ) (f : V → ℝ) (c : C) (v : V) :
    f v ≤ cellMax m cbar f c v := by
  unfold cellMax; split_ifs
  · exact le_max_left _ _
  · exact le_rfl

theorem foldl_ge {α : Type} (F : (V → ℝ) → α → V → ℝ) (hF : ∀ f a v, f v ≤ F f a v) (l : List α)
    (f : V → ℝ) (v : V) : f v ≤ l.foldl F f v := by
  induction l generalizing f with
  | nil => exact le_rfl
  | cons a l ih => exact (hF f a v).trans (ih _)

theorem foldl_le {α : Type} (F : (V → ℝ) → α → V → ℝ) (hF : ∀ f a v, F f a v ≤ f v) (l : List α)
    (f : V → ℝ) (v : V) : l.foldl F f v ≤ f v := by
  induction l generalizing f with
  | nil => exact le_rfl
  | cons a l ih => exact (ih _).trans (hF f a v)

theorem faceMax_ge (m : Mesh C V ι) (q : C → ι → ℝ) (f : V → ℝ) (c : C × List ι) (v : V) :
    f v ≤ faceMax m q f c v := by
  unfold faceMax; split_ifs
  · exact le_max_left _ _
  · exact le_rfl

theorem cellMin_le (m : Mesh C V ι) (cbar : C → ℝ) (f : V → ℝ) (c : C) (v : V) :
    cellMin m cbar f c v ≤ f v := by
  unfold cellMin; split_ifs
  · exact min_le_left _ _
  · exact le_rfl

theorem faceMin_le (m : Mesh C V ι) (q : C → ι → ℝ) (f : V → ℝ) (c : C × List ι) (v : V) :
    faceMin m q f c v ≤ f v := by
  unfold faceMin; split_ifs
  · exact min_le_left _ _
  · exact le_rfl

theorem foldl_mem_ge {α : Type} (F : (V → ℝ) → α → V → ℝ) (hF : ∀ f a v, f v ≤ F f a v) (l : List α)
    (f : V → ℝ) (v : V) (a : α) (ha : a ∈ l) (x : ℝ) (hx : ∀ f, x ≤ F f a v) : x ≤ l.foldl F f v := by
  induction l generalizing f with
  | nil => simp at ha
  | cons b l ih =>
    rcases List.mem_cons.1 ha with rfl | h
    · exact (hx f).trans (foldl_ge F hF l _ v)
    · exact ih _ h

theorem foldl_mem_le {α : Type} (F : (V → ℝ) → α → V → ℝ) (hF : ∀ f a v, F f a v ≤ f v) (l : List α)
    (f : V → ℝ) (v : V) (a : α) (ha : a ∈ l) (x : ℝ) (hx : ∀ f, F f a v ≤ x) : l.foldl F f v ≤ x := by
  induction l generalizing f with
  | nil => simp at ha
  | cons b l ih =>
    rcases List.mem_cons.1 ha with rfl | h
    · exact (foldl_le F hF l _ v).trans (hx f)
    · exact ih _ h

/-- A predicate of values kept by every step holds for the result. -/
theorem foldl_inv {α : Type} (P : ℝ → Prop) (F : (V → ℝ) → α → V → ℝ) (v : V) (l : List α)
    (hF : ∀ f, ∀ a ∈ l, P (f v) → P (F f a v)) (f : V → ℝ) (hf : P (f v)) : P (l.foldl F f v) := by
  induction l generalizing f with
  | nil => exact hf
  | cons a l ih =>
    exact ih (fun f b hb => hF f b (List.mem_cons_of_mem _ hb)) _ (hF f a (by simp) hf)

/-- A value that enters the bounds of a vertex: the mean of a cell at the vertex or the mean of the
nodal values of a boundary facet at the vertex. -/
def Enters (m : Mesh C V ι) (cbar : C → ℝ) (q : C → ι → ℝ) (v : V) (x : ℝ) : Prop :=
  (∃ c ∈ m.cells, (∃ i, m.vert c i = v) ∧ x = cbar c) ∨
  (∃ f ∈ m.facets, (∃ i ∈ f.2, m.vert f.1 i = v) ∧ x = (f.2.map (q f.1)).sum / f.2.length)

/-- The maximum field is the largest value that enters, if none is below the start value. -/
theorem maxField_spec (m : Mesh C V ι) (cbar : C → ℝ) (q : C → ι → ℝ) (v : V) :
    (∀ x, Enters m cbar q v x → x ≤ maxField m cbar q v) ∧
    (maxField m cbar q v = -1e300 ∨ Enters m cbar q v (maxField m cbar q v)) := by
  constructor
  · rintro x (⟨c, hc, hv, rfl⟩ | ⟨f, hf, hv, rfl⟩)
    · refine le_trans ?_ (foldl_ge _ (faceMax_ge m q) m.facets _ v)
      refine foldl_mem_ge _ (cellMax_ge m cbar) m.cells _ v c hc _ fun f => ?_
      unfold cellMax; rw [if_pos hv]; exact le_max_right _ _
    · refine foldl_mem_ge _ (faceMax_ge m q) m.facets _ v f hf _ fun g => ?_
      unfold faceMax; rw [if_pos hv]; exact le_max_right _ _
  · unfold maxField
    refine foldl_inv (fun x => x = -1e300 ∨ Enters m cbar q v x) _ v _ ?_ _ ?_
    · intro g f hf hg
      unfold faceMax
      split_ifs with h
      · rcases max_choice (g v) (faceMean q f) with h' | h' <;> rw [h']
        · exact hg
        · exact Or.inr (Or.inr ⟨f, hf, h, rfl⟩)
      · exact hg
    · refine foldl_inv (fun x => x = -1e300 ∨ Enters m cbar q v x) _ v _ ?_ _ (Or.inl rfl)
      intro g c hc hg
      unfold cellMax
      split_ifs with h
      · rcases max_choice (g v) (cbar c) with h' | h' <;> rw [h']
        · exact hg
        · exact Or.inr (Or.inl ⟨c, hc, h, rfl⟩)
      · exact hg

theorem minField_spec (m : Mesh C V ι) (cbar : C → ℝ) (q : C → ι → ℝ) (v : V) :
    (∀ x, Enters m cbar q v x → minField m cbar q v ≤ x) ∧
    (minField m cbar q v = 1e300 ∨ Enters m cbar q v (minField m cbar q v)) := by
  constructor
  · rintro x (⟨c, hc, hv, rfl⟩ | ⟨f, hf, hv, rfl⟩)
    · refine le_trans (foldl_le _ (faceMin_le m q) m.facets _ v) ?_
      refine foldl_mem_le _ (cellMin_le m cbar) m.cells _ v c hc _ fun f => ?_
      unfold cellMin; rw [if_pos hv]; exact min_le_right _ _
    · refine foldl_mem_le _ (faceMin_le m q) m.facets _ v f hf _ fun g => ?_
      unfold faceMin; rw [if_pos hv]; exact min_le_right _ _
  · unfold minField
    refine foldl_inv (fun x => x = 1e300 ∨ Enters m cbar q v x) _ v _ ?_ _ ?_
    · intro g f hf hg
      unfold faceMin
      split_ifs with h
      · rcases min_choice (g v) (faceMean q f) with h' | h' <;> rw [h']
        · exact hg
        · exact Or.inr (Or.inr ⟨f, hf, h, rfl⟩)
      · exact hg
    · refine foldl_inv (fun x => x = 1e300 ∨ Enters m cbar q v x) _ v _ ?_ _ (Or.inl rfl)
      intro g c hc hg
      unfold cellMin
      split_ifs with h
      · rcases min_choice (g v) (cbar c) with h' | h' <;> rw [h']
        · exact hg
        · exact Or.inr (Or.inl ⟨c, hc, h, rfl⟩)
      · exact hg

/-! ### The factor -/

theorem alphaStep_le (qavg qi hi lo a : ℝ) : alphaStep qavg qi hi lo a ≤ a := by
  unfold alphaStep
  split_ifs
  · exact min_le_left _ _
  · exact min_le_left _ _
  · exact le_rfl

theorem alphaStep_nonneg (qavg qi hi lo a : ℝ) (ha : 0 ≤ a) (hh : qavg ≤ hi) (hl : lo ≤ qavg) :
    0 ≤ alphaStep qavg qi hi lo a := by
  unfold alphaStep
  split_ifs with h1 h2
  · exact le_min ha (le_min zero_le_one (div_nonneg (by linarith) (by linarith)))
  · exact le_min ha (le_min zero_le_one (div_nonneg (by linarith) (by linarith)))
  · exact ha

theorem alphaFold_le (qavg : ℝ) (qi hi lo : ι → ℝ) (l : List ι) (a : ℝ) :
    l.foldl (fun a i => alphaStep qavg (qi i) (hi i) (lo i) a) a ≤ a := by
  induction l generalizing a with
  | nil => exact le_rfl
  | cons i l ih => exact (ih _).trans (alphaStep_le _ _ _ _ _)

theorem alphaFold_nonneg (qavg : ℝ) (qi hi lo : ι → ℝ) (l : List ι) (a : ℝ) (ha : 0 ≤ a)
    (hh : ∀ i, qavg ≤ hi i) (hl : ∀ i, lo i ≤ qavg) :
    0 ≤ l.foldl (fun a i => alphaStep qavg (qi i) (hi i) (lo i) a) a := by
  induction l generalizing a with
  | nil => exact ha
  | cons i l ih => exact ih _ (alphaStep_nonneg _ _ _ _ _ ha (hh i) (hl i))

theorem alphaFold_node (qavg : ℝ) (qi hi lo : ι → ℝ) (l : List ι) (a : ℝ) (i : ι) (h : i ∈ l) :
    (qi i > qavg → l.foldl (fun a i => alphaStep qavg (qi i) (hi i) (lo i) a) a
      ≤ (hi i - qavg) / (qi i - qavg)) ∧
    (qi i < qavg → l.foldl (fun a i => alphaStep qavg (qi i) (hi i) (lo i) a) a
      ≤ (qavg - lo i) / (qavg - qi i)) := by
  induction l generalizing a with
  | nil => simp at h
  | cons j l ih =>
    rcases List.mem_cons.1 h with rfl | h'
    · constructor
      · intro hq
        refine (alphaFold_le _ _ _ _ l _).trans ?_
        unfold alphaStep; beta_reduce; rw [if_pos hq]
        exact (min_le_right _ _).trans (min_le_right _ _)
      · intro hq
        refine (alphaFold_le _ _ _ _ l _).trans ?_
        unfold alphaStep; beta_reduce; rw [if_neg (not_lt.2 hq.le), if_pos hq]
        exact (min_le_right _ _).trans (min_le_right _ _)
    · exact ih _ h'

theorem alphaFold_one (qavg : ℝ) (qi hi lo : ι → ℝ) (l : List ι)
    (h : ∀ i ∈ l, lo i ≤ qi i ∧ qi i ≤ hi i) :
    l.foldl (fun a i => alphaStep qavg (qi i) (hi i) (lo i) a) 1 = 1 := by
  induction l with
  | nil => rfl
  | cons i l ih =>
    have hi' := h i (by simp)
    have : alphaStep qavg (qi i) (hi i) (lo i) 1 = 1 := by
      unfold alphaStep
      split_ifs with h1 h2
      · exact min_eq_left (le_min le_rfl (by rw [le_div_iff₀ (by linarith)]; linarith))
      · exact min_eq_left (le_min le_rfl (by rw [le_div_iff₀ (by linarith)]; linarith))
      · rfl
    rw [List.foldl_cons, this]
    exact ih fun j hj => h j (List.mem_cons_of_mem _ hj)

/-- The value at a node after limiting. -/
theorem limited_mem (qavg : ℝ) (qi hi lo : ι → ℝ) (l : List ι) (i : ι) (h : i ∈ l)
    (hh : ∀ i, qavg ≤ hi i) (hl : ∀ i, lo i ≤ qavg) :
    lo i ≤ qavg + alphaOf qavg qi hi lo l * (qi i - qavg) ∧
    qavg + alphaOf qavg qi hi lo l * (qi i - qavg) ≤ hi i := by
  have h0 : 0 ≤ alphaOf qavg qi hi lo l := alphaFold_nonneg _ _ _ _ _ _ zero_le_one hh hl
  have hn := alphaFold_node qavg qi hi lo l 1 i h
  have hh' := hh i; have hl' := hl i
  rcases lt_trichotomy (qi i) qavg with hq | hq | hq
  · have h1 := hn.2 hq
    change alphaOf qavg qi hi lo l ≤ _ at h1
    rw [le_div_iff₀ (by linarith)] at h1
    constructor <;> nlinarith
  · rw [hq]; constructor <;> linarith
  · have h1 := hn.1 hq
    change alphaOf qavg qi hi lo l ≤ _ at h1
    rw [le_div_iff₀ (by linarith)] at h1
    constructor <;> nlinarith

/-- C49: every nodal value of every cell lies, after limiting, between two of the values that enter
the bounds of its vertex: the means of the cells at the vertex and the means over the nodes of the
boundary facets at the vertex (`enough`: values are within ±1e300). -/
theorem C49_bounds (m0 m : Mesh C V ι) (td : Bool) (htd : td = true ∨ m0 = m) (order : List ι)
    (horder : ∀ i, i ∈ order) (q : C → ι → ℝ) (c : C) (hc : c ∈ m.cells) (i : ι)
    (enough : ∀ x, Enters m (cellMean m q) q (m.vert c i) x → -1e300 ≤ x ∧ x ≤ 1e300) :
    ∃ lo hi, Enters m (cellMean m q) q (m.vert c i) lo ∧ Enters m (cellMean m q) q (m.vert c i) hi ∧
      lo ≤ apply td m0 m order q c i ∧ apply td m0 m order q c i ≤ hi := by
  have hm : matrixMesh td m0 m = m := by
    unfold matrixMesh
    rcases htd with h | h
    · simp [h]
    · simp [h]
  have hcb : centroid m (matrixMesh td m0 m) q = cellMean m q := by
    rw [hm]; funext c; exact centroid_eq m q c
  have own : ∀ j, Enters m (cellMean m q) q (m.vert c j) (cellMean m q c) :=
    fun j => Or.inl ⟨c, hc, ⟨j, rfl⟩, rfl⟩
  have hmem := limited_mem (cellMean m q c) (q c) (fun j => maxField m (cellMean m q) q (m.vert c j))
    (fun j => minField m (cellMean m q) q (m.vert c j)) order i (horder i)
    (fun j => (maxField_spec m _ q _).1 _ (own j)) (fun j => (minField_spec m _ q _).1 _ (own j))
  have happ : apply td m0 m order q c i = cellMean m q c + alphaOf (cellMean m q c) (q c)
      (fun j => maxField m (cellMean m q) q (m.vert c j))
      (fun j => minField m (cellMean m q) q (m.vert c j)) order * (q c i - cellMean m q c) := by
    unfold apply; simp only [hcb]
  rw [← happ] at hmem
  have hE := enough _ (own i)
  refine ⟨_, _, ?_, ?_, hmem.1, hmem.2⟩
  · rcases (minField_spec m (cellMean m q) q (m.vert c i)).2 with h | h
    · have h1 := (minField_spec m (cellMean m q) q (m.vert c i)).1 _ (own i)
      rw [h] at h1
      simp only [h]
      rw [le_antisymm h1 hE.2]
      exact own i
    · exact h
  · rcases (maxField_spec m (cellMean m q) q (m.vert c i)).2 with h | h
    · have h1 := (maxField_spec m (cellMean m q) q (m.vert c i)).1 _ (own i)
      rw [h] at h1
      simp only [h]
      rw [← le_antisymm h1 hE.1]
      exact own i
    · exact h

/-- C49: a cell whose nodal values are already between the bounds of their vertices is not changed. -/
theorem C49_unchanged (m0 m : Mesh C V ι) (td : Bool) (htd : td = true ∨ m0 = m) (order : List ι)
    (q : C → ι → ℝ) (c : C)
    (h : ∀ i, ∃ lo hi, Enters m (cellMean m q) q (m.vert c i) lo ∧
      Enters m (cellMean m q) q (m.vert c i) hi ∧ lo ≤ q c i ∧ q c i ≤ hi) :
    ∀ i, apply td m0 m order q c i = q c i := by
  have hm : matrixMesh td m0 m = m := by
    unfold matrixMesh
    rcases htd with h | h
    · simp [h]
    · simp [h]
  have hcb : centroid m (matrixMesh td m0 m) q = cellMean m q := by
    rw [hm]; funext c; exact centroid_eq m q c
  intro i
  unfold apply
  simp only [hcb]
  unfold alphaOf
  rw [alphaFold_one]
  · ring
  · intro j _
    obtain ⟨lo, hi, h1, h2, h3, h4⟩ := h j
    exact ⟨((minField_spec m _ q _).1 _ h1).trans h3, h4.trans ((maxField_spec m _ q _).1 _ h2)⟩

theorem list_mean_le {α : Type} (l : List α) (f : α → ℝ) (B : ℝ) (hl : l ≠ []) (h : ∀ a ∈ l, f a ≤ B) :
    (l.map f).sum / l.length ≤ B := by
  have hp : (0 : ℝ) < l.length := by exact_mod_cast List.length_pos_of_ne_nil hl
  rw [div_le_iff₀ hp]
  clear hl hp
  induction l with
  | nil => simp
  | cons a l ih =>
    have h1 := ih fun b hb => h b (List.mem_cons_of_mem _ hb)
    have h2 := h a (by simp)
    simp only [List.map_cons, List.sum_cons, List.length_cons, Nat.cast_add, Nat.cast_one]
    linarith

/-- C49: no new extrema: bounds of the whole field before limiting hold after limiting. -/
theorem C49_global (m0 m : Mesh C V ι) (td : Bool) (htd : td = true ∨ m0 = m) (order : List ι)
    (horder : ∀ i, i ∈ order) (q : C → ι → ℝ) (A B : ℝ) (hAB : -1e300 ≤ A ∧ B ≤ 1e300)
    (hpos : ∀ c ∈ m.cells, (∀ i, 0 ≤ m.mass c i) ∧ 0 < ∑ i, m.mass c i)
    (hfac : ∀ f ∈ m.facets, f.1 ∈ m.cells ∧ f.2 ≠ [])
    (hq : ∀ c ∈ m.cells, ∀ i, A ≤ q c i ∧ q c i ≤ B) :
    ∀ c ∈ m.cells, ∀ i, A ≤ apply td m0 m order q c i ∧ apply td m0 m order q c i ≤ B := by
  have hmean : ∀ c ∈ m.cells, A ≤ cellMean m q c ∧ cellMean m q c ≤ B := by
    intro c hc
    obtain ⟨h1, h2⟩ := hpos c hc
    unfold cellMean
    rw [le_div_iff₀ h2, div_le_iff₀ h2, mul_sum, mul_sum]
    exact ⟨sum_le_sum fun i _ => by nlinarith [h1 i, (hq c hc i).1],
      sum_le_sum fun i _ => by nlinarith [h1 i, (hq c hc i).2]⟩
  have hent : ∀ v x, Enters m (cellMean m q) q v x → A ≤ x ∧ x ≤ B := by
    rintro v x (⟨c, hc, -, rfl⟩ | ⟨f, hf, -, rfl⟩)
    · exact hmean c hc
    · obtain ⟨h1, h2⟩ := hfac f hf
      constructor
      · have := list_mean_le f.2 (fun i => -q f.1 i) (-A) h2 fun i _ => neg_le_neg (hq _ h1 i).1
        rw [show (f.2.map fun i => -q f.1 i).sum = -(f.2.map (q f.1)).sum by
          induction f.2 <;> simp_all [add_comm], neg_div] at this
        linarith
      · exact list_mean_le f.2 _ B h2 fun i _ => (hq _ h1 i).2
  intro c hc i
  obtain ⟨lo, hi, h1, h2, h3, h4⟩ := C49_bounds m0 m td htd order horder q c hc i fun x hx =>
    ⟨hAB.1.trans (hent _ x hx).1, (hent _ x hx).2.trans hAB.2⟩
  exact ⟨(hent _ _ h1).1.trans h3, h4.trans (hent _ _ h2).2⟩

/-- C49: a vector field is limited component by component, each as a scalar field. -/
theorem C49_vector {d : ℕ} (td : Bool) (m0 m : Mesh C V ι) (order : List ι)
    (q : C → ι → Fin d → ℝ) (k : Fin d) (c : C) (i : ι) :
    applyVector td m0 m order q c i k = apply td m0 m order (fun c i => q c i k) c i := by
  have key : ∀ (l : List (Fin d)) (q : C → ι → Fin d → ℝ), l.Nodup → ∀ k c i,
      l.foldl (fun q k =>
        let tmp := apply td m0 m order fun c i => q c i k
        fun c i k' => if k' = k then tmp c i else q c i k') q c i k
      = if k ∈ l then apply td m0 m order (fun c i => q c i k) c i else q c i k := by
    intro l
    induction l with
    | nil => intro q _ k c i; simp
    | cons a l ih =>
      intro q hl k c i
      rw [List.foldl_cons, ih _ (List.nodup_cons.1 hl).2]
      have ha := (List.nodup_cons.1 hl).1
      by_cases hk : k ∈ l
      · have : k ≠ a := fun h => ha (h ▸ hk)
        simp [hk, this]
      · by_cases hka : k = a
        · subst hka; simp [hk]
        · simp [hk, hka]
  unfold applyVector
  rw [key _ _ (List.nodup_finRange d)]
  simp

/-- C49 needs the right flag: with `time_dependent_mesh=False` on a mesh that has moved, the matrix of the old mesh
is used, and a constant field changes its mean. -/
theorem C49_stale_mesh :
    let m0 : Mesh Unit (Fin 2) (Fin 2) := ⟨[()], fun _ i => i, fun _ _ => 1, []⟩
    let m : Mesh Unit (Fin 2) (Fin 2) := ⟨[()], fun _ i => i, fun _ _ => 2, []⟩
    let q : Unit → Fin 2 → ℝ := fun _ _ => 1
    cellMean m (apply false m0 m [0, 1] q) () ≠ cellMean m q () := by
  intro m0 m q
  have hc : centroid m m0 q = fun _ => 2 := by
    funext c; simp [centroid, m, m0, q, Mesh.volume]
  have hmin : ∀ v, minField m (fun _ => 2) q v = 2 := by
    intro v
    have : ∃ i, m.vert () i = v := ⟨v, rfl⟩
    simp only [minField, m, List.foldl_nil, List.foldl_cons, cellMin]
    rw [if_pos ⟨v, rfl⟩]; norm_num
  have happ : ∀ i, apply false m0 m [0, 1] q () i = 2 := by
    intro i
    unfold apply matrixMesh
    simp only [Bool.false_eq_true, if_false, hc, hmin]
    unfold alphaOf
    simp only [List.foldl_cons, List.foldl_nil]
    have h0 : ∀ j : Fin 2, ∀ hi a, alphaStep 2 (q () j) hi 2 a = min a (min 1 0) := by
      intro j hi a
      unfold alphaStep
      rw [if_neg (by norm_num [q]), if_pos (by norm_num [q])]
      norm_num [q]
    rw [h0 1, h0 0]
    norm_num
  have h1 : cellMean m (apply false m0 m [0, 1] q) () = 2 := by
    unfold cellMean
    simp only [happ]
    simp [m]
  have h2 : cellMean m q () = 1 := by
    unfold cellMean; simp [m, q]
  rw [h1, h2]; norm_num

/-- One cell with two nodes and one boundary facet meets the hypotheses. -/
example : let m : Mesh Unit (Fin 2) (Fin 2) := ⟨[()], fun _ i => i, fun _ _ => 1, [((), [0])]⟩
    (∀ c ∈ m.cells, (∀ i, 0 ≤ m.mass c i) ∧ 0 < ∑ i, m.mass c i) ∧
    (∀ f ∈ m.facets, f.1 ∈ m.cells ∧ f.2 ≠ []) := by
  simp

end Verif.Limiter
