import Verif.Fields.Model
import Mathlib.Tactic.Linarith
import Mathlib.Tactic.NormNum

/-!
C69: the coefficients at the old time level are those of the previous step.
-/

namespace Verif.Fields

variable {V : Type}

/-- The user's objects are numbered below `base`. -/
def UserIds (fields : List (String × Coef V)) (base : ℕ) : Prop :=
  ∀ p ∈ fields, match p.2 with
    | .fn id => id < base
    | .const id => id < base
    | _ => True

/-- A change of the heap that leaves the objects from `base` on alone. -/
def UserChange (base : ℕ) (f : Heap V → Heap V) : Prop := ∀ h x, base ≤ x → f h x = h x

/-- A change of the heap that leaves the objects in `fields` and from `base` on alone. -/
def LeavesCoefs (fields : List (String × Coef V)) (base : ℕ) (f : Heap V → Heap V) : Prop :=
  (∀ h x, base ≤ x → f h x = h x) ∧
    ∀ p ∈ fields, ∀ id, (p.2 = .fn id ∨ p.2 = .const id) → ∀ h, f h id = h id

theorem get_createOld {fields : List (String × Coef V)} (hn : (fields.map Prod.fst).Nodup) :
    ∀ (base : ℕ) (k : String) (c : Coef V), (k, c) ∈ fields →
      match c with
      | .fn _ => ∃ j, base ≤ j ∧ get (createOld fields base) k = some j
      | .const id => get (createOld fields base) k = some id
      | _ => get (createOld fields base) k = none := by
  induction fields with
  | nil => intro _ _ _ h; cases h
  | cons p fs ih =>
    obtain ⟨k', c'⟩ := p
    simp only [List.map_cons, List.nodup_cons] at hn
    have hnot : ∀ base, k' ∉ (createOld fs base).map Prod.fst := by
      have hsub : ∀ (gs : List (String × Coef V)) (base : ℕ) (x : String),
          x ∈ (createOld gs base).map Prod.fst → x ∈ gs.map Prod.fst := by
        intro gs
        induction gs with
        | nil => intro base x hx; simp [createOld] at hx
        | cons q gs ihg =>
          intro base x hx
          obtain ⟨kq, cq⟩ := q
          cases cq with
          | fn id =>
            simp only [createOld, List.map_cons, List.mem_cons] at hx ⊢
            rcases hx with rfl | hx
            · exact Or.inl rfl
            · exact Or.inr (ihg _ _ hx)
          | const id =>
            simp only [createOld, List.map_cons, List.mem_cons] at hx ⊢
            rcases hx with rfl | hx
            · exact Or.inl rfl
            · exact Or.inr (ihg _ _ hx)
          | expr ev => exact List.mem_cons_of_mem _ (ihg _ _ hx)
          | none => exact List.mem_cons_of_mem _ (ihg _ _ hx)
      intro base hx
      exact hn.1 (hsub fs base k' hx)
    have hnone : ∀ base, get (createOld fs base) k' = none := by
      intro base
      unfold get
      rw [List.find?_eq_none.2]
      · rfl
      · intro q hq
        have : q.1 ≠ k' := fun hh => hnot base (hh ▸ List.mem_map_of_mem hq)
        simpa using this
    intro base k c hm
    rcases List.mem_cons.1 hm with heq | hm'
    · obtain ⟨rfl, rfl⟩ := Prod.mk.inj heq
      cases c with
      | fn id => exact ⟨base, le_refl _, by simp [createOld, get]⟩
      | const id => simp [createOld, get]
      | expr ev => simpa [createOld] using hnone base
      | none => simpa [createOld] using hnone base
    · have hkk : k' ≠ k := by
        rintro rfl
        exact hn.1 (List.mem_map.2 ⟨(k', c), hm', rfl⟩)
      have hskip : ∀ b j, get ((k', j) :: createOld fs b) k = get (createOld fs b) k := by
        intro b j; simp [get, hkk]
      cases c' with
      | fn id' =>
        have := ih hn.2 (base + 1) k c hm'
        simp only [createOld]
        cases c with
        | fn id => obtain ⟨j, h1, h2⟩ := this; exact ⟨j, by omega, by rw [hskip]; exact h2⟩
        | const id => rw [hskip]; exact this
        | expr ev => simp only at this ⊢; rw [hskip]; exact this
        | none => simp only at this ⊢; rw [hskip]; exact this
      | const id' =>
        have := ih hn.2 base k c hm'
        simp only [createOld]
        cases c with
        | fn id => obtain ⟨j, h1, h2⟩ := this; exact ⟨j, h1, by rw [hskip]; exact h2⟩
        | const id => rw [hskip]; exact this
        | expr ev => simp only at this ⊢; rw [hskip]; exact this
        | none => simp only at this ⊢; rw [hskip]; exact this
      | expr ev' => exact ih hn.2 base k c hm'
      | none => exact ih hn.2 base k c hm'

theorem createOld_inj {fields : List (String × Coef V)} (hn : (fields.map Prod.fst).Nodup) :
    ∀ (base : ℕ) (k k' : String) (id id' j : ℕ), (k, Coef.fn id) ∈ fields → (k', Coef.fn id') ∈ fields →
      get (createOld fields base) k = some j → get (createOld fields base) k' = some j → k = k' := by
  induction fields with
  | nil => intro _ _ _ _ _ _ h; cases h
  | cons p fs ih =>
    obtain ⟨k0, c0⟩ := p
    have hn' := hn
    simp only [List.map_cons, List.nodup_cons] at hn
    intro base k k' id id' j h1 h2 g1 g2
    by_cases hk : k0 = k <;> by_cases hk' : k0 = k'
    · exact hk.symm.trans hk'
    · subst hk
      have hc : c0 = .fn id := by
        rcases List.mem_cons.1 h1 with h | h
        · cases h; rfl
        · exact absurd (List.mem_map.2 ⟨_, h, rfl⟩) hn.1
      subst hc
      rcases List.mem_cons.1 h2 with h | h
      · cases h; rfl
      · obtain ⟨j', hj1, hj2⟩ := get_createOld hn.2 (base + 1) k' _ h
        simp [createOld, get] at g1
        have : get ((k0, base) :: createOld fs (base + 1)) k' = get (createOld fs (base + 1)) k' := by
          simp [get, hk']
        simp only [createOld] at g2
        rw [this, hj2] at g2
        cases g2
        omega
    · subst hk'
      have hc : c0 = .fn id' := by
        rcases List.mem_cons.1 h2 with h | h
        · cases h; rfl
        · exact absurd (List.mem_map.2 ⟨_, h, rfl⟩) hn.1
      subst hc
      rcases List.mem_cons.1 h1 with h | h
      · cases h; rfl
      · obtain ⟨j', hj1, hj2⟩ := get_createOld hn.2 (base + 1) k _ h
        simp [createOld, get] at g2
        have : get ((k0, base) :: createOld fs (base + 1)) k = get (createOld fs (base + 1)) k := by
          simp [get, hk]
        simp only [createOld] at g1
        rw [this, hj2] at g1
        cases g1
        omega
    · have m1 : (k, Coef.fn id) ∈ fs := by
        rcases List.mem_cons.1 h1 with h | h
        · cases h; exact absurd rfl hk
        · exact h
      have m2 : (k', Coef.fn id') ∈ fs := by
        rcases List.mem_cons.1 h2 with h | h
        · cases h; exact absurd rfl hk'
        · exact h
      have s1 : ∀ b j, get ((k0, j) :: createOld fs b) k = get (createOld fs b) k := by
        intro b j; simp [get, hk]
      have s2 : ∀ b j, get ((k0, j) :: createOld fs b) k' = get (createOld fs b) k' := by
        intro b j; simp [get, hk']
      cases c0 with
      | fn _ =>
        simp only [createOld, s1, s2] at g1 g2
        exact ih hn.2 _ _ _ _ _ _ m1 m2 g1 g2
      | const _ =>
        simp only [createOld, s1, s2] at g1 g2
        exact ih hn.2 _ _ _ _ _ _ m1 m2 g1 g2
      | expr _ => exact ih hn.2 _ _ _ _ _ _ m1 m2 g1 g2
      | none => exact ih hn.2 _ _ _ _ _ _ m1 m2 g1 g2

/-- The effect of `update_fields_old`. -/
theorem updateOld_spec (fields : List (String × Coef V)) (base : ℕ)
    (hn : (fields.map Prod.fst).Nodup) (hu : UserIds fields base) (h : Heap V) :
    (∀ x, x < base → updateOld (construct fields base) h x = h x) ∧
      ∀ k id, (k, Coef.fn id) ∈ fields → ∀ j, get (createOld fields base) k = some j →
        updateOld (construct fields base) h j = h id := by
  unfold updateOld construct
  dsimp only
  set step := (fun (h : Heap V) (p : String × Coef V) =>
    match p.2 with
    | .fn id => match get (createOld fields base) p.1 with
      | some j => fun x => if x = j then h id else h x
      | none => h
    | _ => h) with hstep
  have gen : ∀ (todo done : List (String × Coef V)) (g : Heap V), fields = done ++ todo →
      (∀ x, x < base → g x = h x) →
      (∀ k id, (k, Coef.fn id) ∈ done → ∀ j, get (createOld fields base) k = some j → g j = h id) →
      (∀ x, x < base → todo.foldl step g x = h x) ∧
      ∀ k id, (k, Coef.fn id) ∈ fields → ∀ j, get (createOld fields base) k = some j →
        todo.foldl step g j = h id := by
    intro todo
    induction todo with
    | nil =>
      intro done g hd h1 h2
      rw [List.append_nil] at hd
      subst hd
      exact ⟨h1, h2⟩
    | cons p todo ih =>
      intro done g hd h1 h2
      obtain ⟨kp, cp⟩ := p
      have hmem : (kp, cp) ∈ fields := by rw [hd]; simp
      rw [List.foldl_cons]
      refine ih (done ++ [(kp, cp)]) (step g (kp, cp)) (by rw [hd]; simp) ?_ ?_
      · intro x hx
        cases cp with
        | fn id =>
          obtain ⟨j, hj1, hj2⟩ := get_createOld hn base kp _ hmem
          rw [hstep]
          dsimp only
          rw [hj2]
          dsimp only
          rw [if_neg (by omega)]
          exact h1 x hx
        | const id => exact h1 x hx
        | expr ev => exact h1 x hx
        | none => exact h1 x hx
      · intro k id hk j hj
        rcases List.mem_append.1 hk with hkd | hk
        · cases cp with
          | fn idp =>
            obtain ⟨jp, hj1, hj2⟩ := get_createOld hn base kp _ hmem
            rw [hstep]
            dsimp only
            rw [hj2]
            dsimp only
            by_cases hjj : j = jp
            · subst hjj
              have hkf : (k, Coef.fn id) ∈ fields := by rw [hd]; exact List.mem_append_left _ hkd
              have heq : k = kp := createOld_inj hn base k kp id idp j hkf hmem hj hj2
              subst heq
              exfalso
              rw [hd, List.map_append, List.nodup_append] at hn
              exact hn.2.2 k (List.mem_map.2 ⟨(k, Coef.fn id), hkd, rfl⟩) k (by simp) rfl
            · rw [if_neg hjj]; exact h2 k id hkd j hj
          | const _ => exact h2 k id hkd j hj
          | expr _ => exact h2 k id hkd j hj
          | none => exact h2 k id hkd j hj
        · simp only [List.mem_singleton] at hk
          cases hk
          rw [hstep]
          dsimp only
          rw [hj]
          dsimp only
          rw [if_pos rfl]
          exact h1 id (hu _ hmem)
  exact gen fields [] h rfl (fun _ _ => rfl) (by simp)

theorem get_of_mem {β : Type} {d : List (String × β)} (hn : (d.map Prod.fst).Nodup) {k : String} {v : β}
    (h : (k, v) ∈ d) : get d k = some v := by
  induction d with
  | nil => cases h
  | cons q d ih =>
    simp only [List.map_cons, List.nodup_cons] at hn
    rcases List.mem_cons.1 h with rfl | h'
    · simp [get]
    · have : q.1 ≠ k := by
        intro hh
        exact hn.1 (hh ▸ List.mem_map.2 ⟨_, h', rfl⟩)
      have h2 : get (q :: d) k = get d k := by simp [get, this]
      rw [h2, ih hn.2 h']

/-- C69: whatever the user does to the objects after an update of the old fields, a coefficient that is a
Function still has its value from that update at the old level. -/
theorem C69_old_value (fields : List (String × Coef V)) (base : ℕ) (hn : (fields.map Prod.fst).Nodup)
    (hu : UserIds fields base) (h : Heap V) (f : Heap V → Heap V) (hf : UserChange base f)
    (k : String) (id : ℕ) (hk : (k, Coef.fn id) ∈ fields) :
    (construct fields base).prev (f (updateOld (construct fields base) h)) k = some (h id) := by
  obtain ⟨j, hj1, hj2⟩ := get_createOld hn base k _ hk
  unfold Integ.prev
  have : (construct fields base).old = createOld fields base := rfl
  rw [this, hj2, Option.map_some, hf _ _ hj1, (updateOld_spec fields base hn hu h).2 k id hk j hj2]

theorem prev_const (fields : List (String × Coef V)) (base : ℕ) (hn : (fields.map Prod.fst).Nodup)
    (h : Heap V) (k : String) (id : ℕ) (hk : (k, Coef.const id) ∈ fields) :
    (construct fields base).prev h k = some (h id) := by
  have := get_createOld hn base k _ hk
  simp only at this
  unfold Integ.prev
  have h2 : (construct fields base).old = createOld fields base := rfl
  rw [h2, this]
  rfl

theorem new_eq (fields : List (String × Coef V)) (base : ℕ) (hn : (fields.map Prod.fst).Nodup)
    (h : Heap V) (k : String) (c : Coef V) (hk : (k, c) ∈ fields) :
    (construct fields base).new h k = c.eval h := by
  unfold Integ.new
  have : (construct fields base).fields = fields := rfl
  rw [this, get_of_mem hn hk]
  rfl

theorem steps_levels (fields : List (String × Coef V)) (base : ℕ) (hn : (fields.map Prod.fst).Nodup)
    (hu : UserIds fields base) (k : String) (id : ℕ) (hk : (k, Coef.fn id) ∈ fields) :
    ∀ (steps : List ((Heap V → Heap V) × (Heap V → Heap V))),
      (∀ s ∈ steps, UserChange base s.1 ∧ LeavesCoefs fields base s.2) → ∀ h0 : Heap V,
      ∀ (i : ℕ) (a : (String → Option V) × (String → Option V)),
        (runSteps (construct fields base) steps (updateOld (construct fields base) h0))[i]? = some a →
        (i = 0 → a.1 k = some (h0 id)) ∧
        ∀ b, 0 < i →
          (runSteps (construct fields base) steps (updateOld (construct fields base) h0))[i - 1]? = some b →
            a.1 k = b.2 k := by
  intro steps
  induction steps with
  | nil => intro _ h0 i a ha; simp [runSteps] at ha
  | cons s rest ih =>
    intro hs h0 i a ha
    obtain ⟨f, sv⟩ := s
    have hs0 := hs (f, sv) List.mem_cons_self
    set it := construct fields base with hit
    set h1 := updateOld it h0 with hh1
    have hnext : (advance it f sv h1).2 = updateOld it (sv (f h1)) := rfl
    cases i with
    | zero =>
      simp only [runSteps, List.getElem?_cons_zero, Option.some.injEq] at ha
      subst ha
      refine ⟨fun _ => ?_, fun b h => absurd h (lt_irrefl _)⟩
      exact C69_old_value fields base hn hu h0 f hs0.1 k id hk
    | succ i =>
      simp only [runSteps, List.getElem?_cons_succ, hnext] at ha
      refine ⟨fun h => absurd h (Nat.succ_ne_zero i), fun b _ hb => ?_⟩
      have ih' := ih (fun s hs' => hs s (List.mem_cons_of_mem _ hs')) (sv (f h1)) i a ha
      rw [Nat.add_sub_cancel] at hb
      cases i with
      | zero =>
        simp only [runSteps, List.getElem?_cons_zero, Option.some.injEq] at hb
        subst hb
        rw [ih'.1 rfl]
        have h3 : (advance it f sv h1).1.2 k = some (f h1 id) := new_eq fields base hn (f h1) k _ hk
        rw [h3]
        exact congrArg some (hs0.2.2 _ hk id (Or.inl rfl) (f h1))
      | succ i =>
        simp only [runSteps, List.getElem?_cons_succ, hnext] at hb
        exact ih'.2 b (Nat.succ_pos i) hb

/-- C69: in every run of forward Euler or Crank-Nicolson the value of a Function coefficient at the old
level of a step is its value at the new level of the step before, and at the first step its value at
initialisation, whatever the forcings do and whatever else is solved for in between. -/
theorem C69_levels (fields : List (String × Coef V)) (base : ℕ) (hn : (fields.map Prod.fst).Nodup)
    (hu : UserIds fields base) (k : String) (id : ℕ) (hk : (k, Coef.fn id) ∈ fields)
    (steps : List ((Heap V → Heap V) × (Heap V → Heap V)))
    (hs : ∀ s ∈ steps, UserChange base s.1 ∧ LeavesCoefs fields base s.2) (h0 : Heap V)
    (i : ℕ) (a : (String → Option V) × (String → Option V))
    (ha : (simulate (construct fields base) steps h0)[i]? = some a) :
    (i = 0 → a.1 k = some (h0 id)) ∧
      ∀ b, 0 < i → (simulate (construct fields base) steps h0)[i - 1]? = some b → a.1 k = b.2 k :=
  steps_levels fields base hn hu k id hk steps hs h0 i a ha

/-- C69: with coefficients that are Functions or Constants and do not change, both levels are the same. -/
theorem C69_steady (fields : List (String × Coef V)) (base : ℕ) (hn : (fields.map Prod.fst).Nodup)
    (hu : UserIds fields base) (k : String) (c : Coef V) (hk : (k, c) ∈ fields)
    (hc : ∃ id, c = .fn id ∨ c = .const id) (h : Heap V) :
    let h1 := updateOld (construct fields base) h
    (construct fields base).prev h1 k = (construct fields base).new h1 k := by
  intro h1
  obtain ⟨id, rfl | rfl⟩ := hc
  · have e1 := C69_old_value fields base hn hu h _root_.id (fun _ _ _ => rfl) k id hk
    rw [new_eq fields base hn h1 k _ hk]
    have e2 := (updateOld_spec fields base hn hu h).1 id (hu _ hk)
    change (construct fields base).prev h1 k = _ at e1
    rw [e1]
    change some (h id) = some (updateOld (construct fields base) h id)
    rw [e2]
  · rw [prev_const fields base hn h1 k id hk, new_eq fields base hn h1 k _ hk]
    rfl

/-- C69: for a Constant the old level has the current value, not the one of the previous step: after a
change from 2 to 10 the old value is 10. -/
theorem C69_constant_violated :
    let it := construct (V := ℕ) [("source", .const 0)] 5
    (simulate it [(_root_.id, _root_.id), (fun _ _ => 10, _root_.id)] (fun _ => 2)).map
      (fun a => (a.1 "source", a.2 "source")) = [(some 2, some 2), (some 10, some 10)] := by
  decide +kernel

/-- C69: a coefficient given as an expression is missing at the old level. -/
theorem C69_expression_missing (fields : List (String × Coef V)) (base : ℕ)
    (hn : (fields.map Prod.fst).Nodup) (h : Heap V) (k : String) (ev : Heap V → V)
    (hk : (k, Coef.expr ev) ∈ fields) :
    (construct fields base).prev h k = none ∧ (construct fields base).new h k = some (ev h) := by
  refine ⟨?_, new_eq fields base hn h k _ hk⟩
  have := get_createOld hn base k _ hk
  simp only at this
  unfold Integ.prev
  have h2 : (construct fields base).old = createOld fields base := rfl
  rw [h2, this]
  rfl

/-- C69: a steady source that is a Function or a Constant adds `dt * s` in a Crank-Nicolson or forward
Euler step. -/
theorem C69_source (fields : List (String × Coef ℝ)) (base : ℕ) (hn : (fields.map Prod.fst).Nodup)
    (hu : UserIds fields base) (k : String) (c : Coef ℝ) (hk : (k, c) ∈ fields)
    (hc : ∃ id, c = .fn id ∨ c = .const id) (h : Heap ℝ) (θ dt uOld u s : ℝ)
    (hv : c.eval (updateOld (construct fields base) h) = some s) :
    let h1 := updateOld (construct fields base) h
    let lv := ((construct fields base).prev h1, (construct fields base).new h1)
    (cnResidual (sourceRes k) θ dt uOld u lv = 0 ↔ u = uOld + dt * s) ∧
      (feResidual (sourceRes k) dt uOld u lv = 0 ↔ u = uOld + dt * s) := by
  intro h1 lv
  have hnew : lv.2 k = some s := (new_eq fields base hn h1 k c hk).trans hv
  have hold : lv.1 k = some s := (C69_steady fields base hn hu k c hk hc h).trans hnew
  unfold cnResidual feResidual sourceRes
  rw [hnew, hold]
  dsimp only
  constructor <;> constructor <;> intro hh <;> linarith

/-- C69: a source that varies is weighted between the levels: with value `s0` at the end of the step
before and `s1` now a Crank-Nicolson step adds `dt * (θ * s1 + (1 - θ) * s0)` and a forward Euler step
`dt * s0`. -/
theorem C69_source_varying (fields : List (String × Coef ℝ)) (base : ℕ)
    (hn : (fields.map Prod.fst).Nodup) (hu : UserIds fields base) (k : String) (id : ℕ)
    (hk : (k, Coef.fn id) ∈ fields) (h : Heap ℝ) (f solve : Heap ℝ → Heap ℝ) (hf : UserChange base f)
    (θ dt uOld u : ℝ) :
    let h1 := updateOld (construct fields base) h
    let lv := (advance (construct fields base) f solve h1).1
    (cnResidual (sourceRes k) θ dt uOld u lv = 0 ↔
        u = uOld + dt * (θ * f h1 id + (1 - θ) * h id)) ∧
      (feResidual (sourceRes k) dt uOld u lv = 0 ↔ u = uOld + dt * h id) := by
  intro h1 lv
  have hnew : lv.2 k = some (f h1 id) := new_eq fields base hn (f h1) k _ hk
  have hold : lv.1 k = some (h id) := C69_old_value fields base hn hu h f hf k id hk
  unfold cnResidual feResidual sourceRes
  rw [hnew, hold]
  dsimp only
  constructor <;> constructor <;> intro hh <;> linarith

/-- C69: the same source given as an expression adds only the part `θ` of it in a Crank-Nicolson step,
and nothing in a forward Euler step. -/
theorem C69_source_expression_violated (fields : List (String × Coef ℝ)) (base : ℕ)
    (hn : (fields.map Prod.fst).Nodup) (k : String) (ev : Heap ℝ → ℝ) (hk : (k, Coef.expr ev) ∈ fields)
    (h1 : Heap ℝ) (θ dt uOld u : ℝ) :
    let lv := ((construct fields base).prev h1, (construct fields base).new h1)
    (cnResidual (sourceRes k) θ dt uOld u lv = 0 ↔ u = uOld + dt * (θ * ev h1)) ∧
      (feResidual (sourceRes k) dt uOld u lv = 0 ↔ u = uOld) := by
  intro lv
  obtain ⟨hold, hnew⟩ := C69_expression_missing fields base hn h1 k ev hk
  have hold' : lv.1 k = none := hold
  have hnew' : lv.2 k = some (ev h1) := hnew
  unfold cnResidual feResidual sourceRes
  rw [hold', hnew']
  dsimp only
  constructor <;> constructor <;> intro hh <;> linarith

/-- C69: a velocity factor that is a plain number (as the sediment model returns without velocity
correction) or an expression is missing at the old level, and building the advection term raises. -/
theorem C69_factor_violated :
    let it := construct (V := ℝ) [("tracer_advective_velocity_factor", .expr fun _ => 1),
      ("uv_2d", .fn 0)] 5
    ∀ h, corrected (it.prev h) = none ∧ corrected (it.new h) = some (h 0) := by
  intro it h
  constructor
  · simp [it, corrected, construct, createOld, Integ.prev, get]
  · simp [it, corrected, construct, Integ.new, get, Coef.eval]

/-- C69: with a factor that is a Function or a Constant both levels can be built. -/
theorem C69_factor (fields : List (String × Coef ℝ)) (base : ℕ) (hn : (fields.map Prod.fst).Nodup)
    (uv : ℕ) (c : Coef ℝ) (hk : ("tracer_advective_velocity_factor", c) ∈ fields)
    (hc : ∃ id, c = .fn id ∨ c = .const id) (huv : ("uv_2d", Coef.fn uv) ∈ fields) (h : Heap ℝ) :
    (∃ x, corrected ((construct fields base).prev h) = some x) ∧
      ∃ x, corrected ((construct fields base).new h) = some x := by
  obtain ⟨j, _, hj⟩ := get_createOld hn base _ _ huv
  have hp : ∃ v, (construct fields base).prev h "uv_2d" = some v :=
    ⟨h j, by unfold Integ.prev; change (get (createOld fields base) _).map h = _; rw [hj]; rfl⟩
  have hnv := new_eq fields base hn h _ _ huv
  have hfac : ∃ v, (construct fields base).prev h "tracer_advective_velocity_factor" = some v := by
    obtain ⟨id, rfl | rfl⟩ := hc
    · obtain ⟨j', _, hj'⟩ := get_createOld hn base _ _ hk
      exact ⟨h j', by unfold Integ.prev; change (get (createOld fields base) _).map h = _; rw [hj']; rfl⟩
    · exact ⟨_, prev_const fields base hn h _ id hk⟩
  have hfn : ∃ v, (construct fields base).new h "tracer_advective_velocity_factor" = some v := by
    obtain ⟨id, rfl | rfl⟩ := hc <;> exact ⟨_, new_eq fields base hn h _ _ hk⟩
  obtain ⟨v1, e1⟩ := hp
  obtain ⟨v2, e2⟩ := hfac
  obtain ⟨v3, e3⟩ := hfn
  constructor
  · exact ⟨v2 * v1, by unfold corrected; rw [e1, e2]⟩
  · exact ⟨v3 * h uv, by unfold corrected; rw [hnv, e3]; rfl⟩

/-- C69: without a velocity the advection term is left out at both levels, whatever the factor is. -/
theorem C69_no_velocity (fields : List (String × Coef ℝ)) (base : ℕ) (h : Heap ℝ)
    (hp : (construct fields base).prev h "uv_2d" = none) (hn : (construct fields base).new h "uv_2d" = none) :
    corrected ((construct fields base).prev h) = some 0 ∧ corrected ((construct fields base).new h) = some 0 := by
  unfold corrected
  rw [hp, hn]
  exact ⟨rfl, rfl⟩

example (h : Heap ℝ) : corrected ((construct [("tracer_advective_velocity_factor", .expr fun _ => (1 : ℝ))] 5).prev h) = some 0 :=
  (C69_no_velocity _ _ h (by simp [construct, createOld, Integ.prev, get]) (by simp [construct, Integ.new, get])).1

/-- A dictionary used as an example: a Function, a Constant and None. -/
def exFields : List (String × Coef ℕ) := [("coriolis", .const 1), ("source", .fn 0), ("visc", .none)]

example : (exFields.map Prod.fst).Nodup ∧ UserIds exFields 5 := by
  refine ⟨by decide, ?_⟩
  intro p hp
  simp [exFields] at hp
  rcases hp with rfl | rfl | rfl <;> simp

example : (simulate (construct exFields 5)
    [(fun h x => if x = 0 then 7 else h x, _root_.id), (fun h x => if x = 0 then 8 else h x, _root_.id)]
    (fun _ => 3)).map (fun a => (a.1 "source", a.2 "source")) = [(some 3, some 7), (some 7, some 8)] := by
  decide +kernel

end Verif.Fields
