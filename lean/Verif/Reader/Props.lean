import Verif.Reader.Model

/-!
Property C150: a reader of time series returns the records of the requested time.
-/

namespace Verif.Reader

variable {V : Type}

/-! ### The statement -/

/-- The lists of indices of an array of the given shape. -/
def InRange : List ℕ → List ℕ → Prop
  | [], [] => True
  | i :: is, n :: ns => i < n ∧ InRange is ns
  | _, _ => False

/-- The variable is an array with one size for each of its dimensions. -/
def Proper (x : Var V) : Prop := x.data.shape.length = x.dims.length

/-- `y` holds the values of `x` at the index `t` of the dimension `time` and nothing else: a series
(one dimension) becomes its value; in other arrays the dimension `time` is left with one entry. -/
def Record (time : String) (x : Var V) (t : ℕ) (y : Arr V) : Prop :=
  let a := x.dims.idxOf time
  (x.dims.length = 1 → y.shape = [] ∧ y.get [] = x.data.get [t]) ∧
  (x.dims.length ≠ 1 → y.shape = x.data.shape.set a 1 ∧
    ∀ i, InRange i y.shape → InRange (i.set a t) x.data.shape ∧ y.get i = x.data.get (i.set a t))

/-- All files that are read store all variables with dimensions in the same order. -/
def SameLayout (vars : List String) (dims : List String) (f : File V) : Prop :=
  ∀ v ∈ vars, ∃ x, f.var v = some x ∧ Proper x ∧ x.dims = dims

/-- The file has the time `t`. -/
def HasTime (vars : List String) (time : String) (f : File V) (t : ℕ) : Prop :=
  time ∈ f.dims ∧ ∀ v ∈ vars, ∀ x, f.var v = some x → ∃ n, x.data.shape[x.dims.idxOf time]? = some n ∧ t < n

/-! ### Lemmas -/

theorem inRange_length : ∀ {i s : List ℕ}, InRange i s → i.length = s.length
  | [], [], _ => rfl
  | _ :: _, _ :: _, h => by simp [inRange_length h.2]
  | [], _ :: _, h => h.elim
  | _ :: _, [], h => h.elim

theorem inRange_modify : ∀ {i s : List ℕ} {a t n : ℕ}, s[a]? = some n → t < n →
    InRange i (s.modify a (fun m => min 1 (m - t))) →
    i.modify a (· + t) = i.set a t ∧ InRange (i.set a t) s
  | [], [], _, _, _, h, _, _ => by simp at h
  | [], _ :: _, 0, _, _, _, _, h => by simp [InRange] at h
  | [], _ :: _, _ + 1, _, _, _, _, h => by simp [InRange] at h
  | _ :: _, [], _, _, _, h, _, _ => by simp at h
  | i :: is, m :: s, 0, t, n, h, ht, hr => by
    simp only [List.getElem?_cons_zero, Option.some.injEq] at h
    subst h
    simp only [List.modify_zero_cons, InRange] at hr
    have h0 : i = 0 := by omega
    subst h0
    refine ⟨by simp, ?_⟩
    simp only [List.set_cons_zero, InRange]
    exact ⟨ht, hr.2⟩
  | i :: is, m :: s, a + 1, t, n, h, ht, hr => by
    simp only [List.getElem?_cons_succ] at h
    simp only [List.modify_succ_cons, InRange] at hr
    obtain ⟨h1, h2⟩ := inRange_modify h ht hr.2
    refine ⟨by simp [h1], ?_⟩
    simp only [List.set_cons_succ, InRange]
    exact ⟨hr.1, h2⟩

theorem shape_modify : ∀ {s : List ℕ} {a t n : ℕ}, s[a]? = some n → t < n →
    s.modify a (fun m => min 1 (m - t)) = s.set a 1
  | [], _, _, _, h, _ => by simp at h
  | m :: s, 0, t, n, h, ht => by
    simp only [List.getElem?_cons_zero, Option.some.injEq] at h
    subst h
    have : min 1 (m - t) = 1 := by omega
    simp [this]
  | m :: s, a + 1, t, n, h, ht => by
    simp only [List.getElem?_cons_succ] at h
    simp [shape_modify h ht]

theorem take_record (time : String) (x : Var V) (hp : Proper x) (hm : time ∈ x.dims) (t n : ℕ)
    (hn : x.data.shape[x.dims.idxOf time]? = some n) (ht : t < n) :
    ∃ y, take (x.dims.idxOf time, x.dims.length) t x.data = some y ∧ Record time x t y := by
  unfold Proper at hp
  unfold take
  by_cases h1 : x.dims.length = 1
  · rw [if_pos h1]
    obtain ⟨d, hd⟩ := List.length_eq_one_iff.1 h1
    have ha : x.dims.idxOf time = 0 := by
      rw [hd] at hm ⊢
      simp only [List.mem_singleton] at hm
      simp [hm]
    rw [ha] at hn
    rw [h1] at hp
    obtain ⟨m, hs⟩ := List.length_eq_one_iff.1 hp
    rw [hs] at hn
    simp only [List.getElem?_cons_zero, Option.some.injEq] at hn
    subst hn
    refine ⟨⟨[], fun i => x.data.get (t :: i)⟩, ?_, ?_⟩
    · unfold index
      rw [hs]
      simp [ht]
    · exact ⟨fun _ => ⟨rfl, rfl⟩, fun h => absurd h1 h⟩
  · rw [if_neg h1]
    refine ⟨_, by unfold slice; rw [if_pos hp.ge], fun h => absurd h h1, fun _ => ?_⟩
    refine ⟨shape_modify hn ht, fun i hi => ?_⟩
    obtain ⟨e, r⟩ := inRange_modify hn ht hi
    exact ⟨r, by simp only [e]⟩

/-- One call whose memory is that of the layout. -/
theorem readVars_record (vars : List String) (time : String) (dims : List String) (hd : time ∈ dims)
    (f : File V) (t : ℕ) : ∀ vs : List String, (∀ v ∈ vs, v ∈ vars) → SameLayout vars dims f →
    HasTime vars time f t →
    ∃ out, readVars (dims.idxOf time, dims.length) f t vs = some out ∧ out.length = vs.length ∧
      ∀ (k : ℕ) v y, vs[k]? = some v → out[k]? = some y → ∃ x, f.var v = some x ∧ Record time x t y
  | [], _, _, _ => ⟨[], rfl, rfl, by simp⟩
  | v :: vs, hvs, hl, ht => by
    obtain ⟨out, h1, h2, h3⟩ := readVars_record vars time dims hd f t vs
      (fun w hw => hvs w (List.mem_cons_of_mem _ hw)) hl ht
    obtain ⟨x, hx, hp, hdx⟩ := hl v (hvs v List.mem_cons_self)
    obtain ⟨n, hn, htn⟩ := ht.2 v (hvs v List.mem_cons_self) x hx
    obtain ⟨y, hy, hr⟩ := take_record time x hp (by rw [hdx]; exact hd) t n hn htn
    rw [hdx] at hy
    refine ⟨y :: out, ?_, by simp [h2], ?_⟩
    · simp only [readVars, hx, hy, h1]
    · intro k w z hk hz
      cases k with
      | zero =>
        simp only [List.getElem?_cons_zero, Option.some.injEq] at hk hz
        subst hk; subst hz
        exact ⟨x, hx, hr⟩
      | succ k =>
        simp only [List.getElem?_cons_succ] at hk hz
        exact h3 k w z hk hz

/-! ### C150 -/

/-- A memory is right for the files of one layout. -/
def Right (time : String) (dims : List String) (m : Memory) : Prop :=
  m = none ∨ m = some (dims.idxOf time, dims.length)

theorem read_right (vars : List String) (time : String) (dims : List String) (m : Memory)
    (hm : Right time dims m) (f : File V) (t : ℕ) (hl : SameLayout vars dims f) :
    Right time dims (read vars time m f t).1 := by
  rcases hm with h | h
  · subst h
    simp only [read]
    cases hD : detect vars time f with
    | none => exact Or.inl rfl
    | some d =>
      refine Or.inr ?_
      unfold detect at hD
      split at hD
      · cases vars with
        | nil => simp at hD
        | cons v vs =>
          obtain ⟨x, hx, -, hdx⟩ := hl v List.mem_cons_self
          simp only [hx] at hD
          split at hD
          · rw [hdx] at hD
            exact hD.symm
          · simp at hD
      · simp at hD
  · subst h
    exact Or.inr rfl

theorem after_right (vars : List String) (time : String) (dims : List String)
    (calls : List (File V × ℕ)) (hl : ∀ c ∈ calls, SameLayout vars dims c.1) :
    Right time dims (after vars time calls) := by
  unfold after
  suffices H : ∀ (cs : List (File V × ℕ)) (m : Memory), (∀ c ∈ cs, SameLayout vars dims c.1) →
      Right time dims m →
      Right time dims (cs.foldl (fun m c => (read vars time m c.1 c.2).1) m) from
    H calls none hl (Or.inl rfl)
  intro cs
  induction cs with
  | nil => intro m _ h; exact h
  | cons c cs ih =>
    intro m h1 h2
    exact ih _ (fun d hd => h1 d (List.mem_cons_of_mem _ hd))
      (read_right vars time dims m h2 c.1 c.2 (h1 c List.mem_cons_self))

/-- C150, provable part: if the variables have the same dimensions in the same order in all files that a
reader has opened, then whatever was read before, every call for a stored time succeeds and returns, for
each variable in the order of the list, exactly its values at that time.  Missing: files whose dimensions
are in another order (`C150_other_file_violated`). -/
theorem C150_records_partial (vars : List String) (hne : vars ≠ []) (time : String)
    (dims : List String) (hd : time ∈ dims) (calls : List (File V × ℕ))
    (hl : ∀ c ∈ calls, SameLayout vars dims c.1) (f : File V) (t : ℕ) (hf : SameLayout vars dims f)
    (ht : HasTime vars time f t) :
    ∃ out, (read vars time (after vars time calls) f t).2 = some out ∧ out.length = vars.length ∧
      ∀ (k : ℕ) v y, vars[k]? = some v → out[k]? = some y → ∃ x, f.var v = some x ∧ Record time x t y := by
  have key := readVars_record vars time dims hd f t vars (fun _ h => h) hf ht
  rcases after_right vars time dims calls hl with h | h
  · rw [h]
    cases vars with
    | nil => exact absurd rfl hne
    | cons v vs =>
      obtain ⟨x, hx, -, hdx⟩ := hf v List.mem_cons_self
      have hD : detect (v :: vs) time f = some (dims.idxOf time, dims.length) := by
        unfold detect
        rw [if_pos ht.1]
        simp only [hx, hdx, if_pos hd]
      simp only [read, hD]
      exact key
  · rw [h]
    exact key

/-- C150: what a reader returns does not depend on what it has read before, so a reader may be shared and
the cache of the interpolator in time (C15) may keep or drop its results. -/
theorem C150_history (vars : List String) (hne : vars ≠ []) (time : String) (dims : List String)
    (hd : time ∈ dims) (calls calls' : List (File V × ℕ)) (hl : ∀ c ∈ calls, SameLayout vars dims c.1)
    (hl' : ∀ c ∈ calls', SameLayout vars dims c.1) (f : File V) (t : ℕ) (hf : SameLayout vars dims f)
    (ht : time ∈ f.dims) :
    (read vars time (after vars time calls) f t).2 =
      (read vars time (after vars time calls') f t).2 := by
  have one : ∀ cs : List (File V × ℕ), (∀ c ∈ cs, SameLayout vars dims c.1) →
      (read vars time (after vars time cs) f t).2 =
        readVars (dims.idxOf time, dims.length) f t vars := by
    intro cs hcs
    rcases after_right vars time dims cs hcs with h | h
    · rw [h]
      cases vars with
      | nil => exact absurd rfl hne
      | cons v vs =>
        obtain ⟨x, hx, -, hdx⟩ := hf v List.mem_cons_self
        have hD : detect (v :: vs) time f = some (dims.idxOf time, dims.length) := by
          unfold detect
          rw [if_pos ht]
          simp only [hx, hdx, if_pos hd]
        simp only [read, hD]
    · rw [h]
      rfl
  rw [one calls hl, one calls' hl']

/-- C150: files that do not have the dimension of time, or whose first variable does not have it, are
refused, and the reader forgets them. -/
theorem C150_refused (vars : List String) (time : String) (f : File V) (t : ℕ)
    (h : time ∉ f.dims ∨ ∃ v x, vars.head? = some v ∧ f.var v = some x ∧ time ∉ x.dims) :
    read vars time none f t = (none, none) := by
  have hD : detect vars time f = none := by
    unfold detect
    rcases h with h | ⟨v, x, hv, hx, hn⟩
    · rw [if_neg h]
    · cases vars with
      | nil => simp at hv
      | cons w ws =>
        simp only [List.head?_cons, Option.some.injEq] at hv
        subst hv
        split
        · simp only [hx, if_neg hn]
        · rfl
  simp only [read, hD]

/-- C150 is violated for a later file with the dimensions in another order: the reader keeps the position of
the time dimension of the first file and returns the values of place `t` at all times instead of the values of
all places at time `t`. -/
theorem C150_other_file_violated (v time place : String) (f g : File V) (s t : ℕ)
    (x y : Var V) (hfd : time ∈ f.dims) (hf : f.var v = some x) (hg : g.var v = some y)
    (hx : x.dims = [time, place]) (hy : y.dims = [place, time]) (hyp : Proper y) :
    ∃ a, (read [v] time (after [v] time [(f, s)]) g t).2 = some [a] ∧
      ∀ i j, a.get [i, j] = y.data.get [i + t, j] := by
  have hD : detect [v] time f = some (0, 2) := by
    unfold detect
    rw [if_pos hfd]
    simp [hf, hx]
  have hA : after [v] time [(f, s)] = some (0, 2) := by
    simp [after, read, hD]
  have hlen : 2 ≤ y.data.shape.length := by
    unfold Proper at hyp
    rw [hyp, hy]
    simp
  rw [hA]
  refine ⟨⟨y.data.shape.modify 0 (fun m => min 1 (m - t)), fun i => y.data.get (i.modify 0 (· + t))⟩,
    ?_, fun i j => by simp⟩
  simp [read, readVars, hg, take, slice, hlen]

/-! ### Examples -/

/-- A file with two series of three times. -/
def series : File ℕ where
  dims := ["time"]
  var v := if v = "elev" then some ⟨["time"], [3], fun i => 10 + i.headD 0⟩
    else if v = "flux" then some ⟨["time"], [3], fun i => 20 + i.headD 0⟩ else none

example : SameLayout ["elev", "flux"] ["time"] series ∧ HasTime ["elev", "flux"] "time" series 2 := by
  refine ⟨?_, by simp [series], ?_⟩
  · intro v hv
    simp only [List.mem_cons, List.not_mem_nil, or_false] at hv
    rcases hv with rfl | rfl <;> exact ⟨_, rfl, rfl, rfl⟩
  · intro v hv x hx
    simp only [List.mem_cons, List.not_mem_nil, or_false] at hv
    rcases hv with rfl | rfl <;> cases hx <;> exact ⟨3, rfl, by decide⟩

example : ((read ["elev", "flux"] "time" none series 2).2.map fun l => l.map fun a => a.get []) =
    some [12, 22] := by decide

/-- Two stations, time first, and the same with the station first. -/
def timeFirst : File ℕ where
  dims := ["time", "station"]
  var v := if v = "elev" then some ⟨["time", "station"], [3, 2], fun i => 10 * i.getD 0 0 + i.getD 1 0⟩ else none

def stationFirst : File ℕ where
  dims := ["time", "station"]
  var v := if v = "elev" then some ⟨["station", "time"], [2, 3], fun i => 10 * i.getD 1 0 + i.getD 0 0⟩ else none

/-- The level 1 of a file read first: values 10 and 11. -/
example : ((read ["elev"] "time" none timeFirst 1).2.map fun l => l.map fun a => (a.shape, a.get [0, 0], a.get [0, 1])) =
    some [([1, 2], 10, 11)] := by decide
example : ((read ["elev"] "time" none stationFirst 1).2.map fun l => l.map fun a => (a.shape, a.get [0, 0], a.get [1, 0])) =
    some [([2, 1], 10, 11)] := by decide
/-- The second after the first: the values 1, 11, 21 of the second station at all times. -/
example : ((read ["elev"] "time" (after ["elev"] "time" [(timeFirst, 0)]) stationFirst 1).2.map fun l =>
    l.map fun a => (a.shape, a.get [0, 0], a.get [0, 1], a.get [0, 2])) = some [([1, 3], 1, 11, 21)] := by decide

end Verif.Reader
