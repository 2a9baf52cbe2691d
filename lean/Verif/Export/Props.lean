import Verif.Export.Lemmas

/-!
Properties C06 (numbered files) and C07 (one write per export call).
-/

namespace Verif.Export

variable {V : Type}

/-! ### C06 -/

/-- C06: the file name determines field prefix and export index, for every index (also those
with more than five digits) and every prefix (also prefixes with underscores or digits). -/
theorem C06_filename_injective (p p' : List Char) (legacy : Bool) (i j : ℕ) :
    genFilename p legacy i = genFilename p' legacy j ↔ p = p' ∧ i = j :=
  ⟨genFilename_inj p p' legacy i j, by rintro ⟨rfl, rfl⟩; rfl⟩

example : genFilename "Elevation2d".toList false 42 = "Elevation2d_00042.h5".toList ∧
    genFilename "Elevation2d".toList false 123456 = "Elevation2d_123456.h5".toList := by
  decide +kernel

/-- Abstract behaviour of an export manager: one common next index, and for each field a map
from indices to (value, time). -/
structure Abs (V : Type) where
  next : ℕ
  store : ℕ → ℕ → Option (V × ℚ)

/-- One abstract operation. -/
def Abs.step (a : Abs V) : Op V → Abs V
  | .export vals t =>
    { next := a.next + 1
      store := fun k i => if i = a.next then some (vals k, t) else a.store k i }
  | .setNext i => { a with next := i }

/-- The concrete manager and disk represent the abstract state. -/
structure Rel (m : Manager) (d : Disk V) (a : Abs V) : Prop where
  nodup : (m.map H5.pfx).Nodup
  lockstep : ∀ e ∈ m, e.nextIx = a.next ∧ e.legacy = false ∧ e.includeTime = true
  data : ∀ k (h : k < m.length) i,
    (match load m[k] d i with
      | .ok (v, some t) => some (v, t)
      | _ => none) = a.store k i

theorem mexport_shape (vals : ℕ → V) (t : ℚ) (m : Manager) (d : Disk V) (k : ℕ)
    (h : ∀ e ∈ m, e.legacy = false) :
    (Manager.export vals (some t) m d k).1 = m.map (fun e => { e with nextIx := e.nextIx + 1 }) ∧
    (Manager.export vals (some t) m d k).2.2 = none := by
  induction m generalizing d k with
  | nil => simp [Manager.export]
  | cons e es ih =>
    have he := h e (by simp)
    have := ih (Disk.put d (genFilename e.pfx false e.nextIx)
      (.stored (vals k) (if e.includeTime then some t else none))) (k + 1)
      (fun x hx => h x (by simp [hx]))
    simp [Manager.export, exportH5, exportAsIndex, he, this.1, this.2]

theorem mexport_frame (vals : ℕ → V) (t : ℚ) (m : Manager) (d : Disk V) (k : ℕ) (f : List Char)
    (h : ∀ e ∈ m, e.legacy = false) (hf : ∀ e ∈ m, f ≠ genFilename e.pfx false e.nextIx) :
    (Manager.export vals (some t) m d k).2.1 f = d f := by
  induction m generalizing d k with
  | nil => simp [Manager.export]
  | cons e es ih =>
    have he := h e (by simp)
    have := ih (Disk.put d (genFilename e.pfx false e.nextIx)
      (.stored (vals k) (if e.includeTime then some t else none))) (k + 1)
      (fun x hx => h x (by simp [hx])) (fun x hx => hf x (by simp [hx]))
    simp only [Manager.export, exportH5, exportAsIndex, he]
    simp only [Bool.false_eq_true, if_false, Option.isNone_some, Bool.and_false]
    rw [this]
    simp [Disk.put, hf e (by simp)]

theorem mexport_data (vals : ℕ → V) (t : ℚ) (m : Manager) (d : Disk V) (k : ℕ)
    (hn : (m.map H5.pfx).Nodup) (h : ∀ e ∈ m, e.legacy = false) (j : ℕ) (hj : j < m.length) :
    (Manager.export vals (some t) m d k).2.1 (genFilename m[j].pfx false m[j].nextIx) =
      some (.stored (vals (k + j)) (if m[j].includeTime then some t else none)) := by
  induction m generalizing d k j with
  | nil => simp at hj
  | cons e es ih =>
    have he := h e (by simp)
    have hes : ∀ x ∈ es, x.legacy = false := fun x hx => h x (by simp [hx])
    rw [List.map_cons, List.nodup_cons] at hn
    simp only [Manager.export, exportH5, exportAsIndex, he]
    simp only [Bool.false_eq_true, if_false, Option.isNone_some, Bool.and_false]
    cases j with
    | zero =>
      simp only [List.getElem_cons_zero]
      rw [mexport_frame vals t es _ (k + 1) _ hes]
      · simp [Disk.put]
      · intro x hx hcon
        apply hn.1
        rw [(genFilename_inj _ _ _ _ _ hcon).1]
        exact List.mem_map_of_mem hx
    | succ j =>
      simp only [List.getElem_cons_succ]
      rw [ih _ _ hn.2 hes j (by simpa using hj)]
      simp [Nat.add_assoc, Nat.add_comm 1 j]

theorem rel_step (m : Manager) (d : Disk V) (a : Abs V) (op : Op V) (hr : Rel m d a) :
    Rel (runOps [op] (m, d)).1 (runOps [op] (m, d)).2 (a.step op) := by
  have hleg : ∀ e ∈ m, e.legacy = false := fun e he => (hr.lockstep e he).2.1
  cases op with
  | setNext i =>
    simp only [runOps, Abs.step, Manager.setNext]
    refine ⟨?_, ?_, ?_⟩
    · rw [List.map_map]; exact hr.nodup
    · intro e he
      rw [List.mem_map] at he
      obtain ⟨x, hx, rfl⟩ := he
      exact ⟨rfl, (hr.lockstep x hx).2⟩
    · intro k hk i'
      have := hr.data k (by simpa using hk) i'
      simpa [load, H5.setNext] using this
  | «export» vals t =>
    simp only [runOps, Abs.step]
    obtain ⟨hs1, -⟩ := mexport_shape vals t m d 0 hleg
    refine ⟨?_, ?_, ?_⟩
    · rw [hs1, List.map_map]; exact hr.nodup
    · rw [hs1]
      intro e he
      rw [List.mem_map] at he
      obtain ⟨x, hx, rfl⟩ := he
      exact ⟨by simp [(hr.lockstep x hx).1], (hr.lockstep x hx).2⟩
    · rw [hs1]
      intro k hk i
      have hk' : k < m.length := by simpa using hk
      have hmem : m[k] ∈ m := List.getElem_mem hk'
      have hold := hr.data k hk' i
      have hl := hr.lockstep _ hmem
      simp only [List.getElem_map, load, hl.2.1]
      by_cases hi : i = a.next
      · subst hi
        have := mexport_data vals t m d 0 hr.nodup hleg k hk'
        rw [hl.1] at this
        simp [this, hl.2.2]
      · rw [mexport_frame vals t m d 0 _ hleg]
        · simp only [load, hl.2.1] at hold
          simpa [hi] using hold
        · intro x hx hcon
          have := (genFilename_inj _ _ _ _ _ hcon).2
          rw [(hr.lockstep x hx).1] at this
          exact hi this

theorem runOps_cons (op : Op V) (ops : List (Op V)) (w : Manager × Disk V) :
    runOps (op :: ops) w = runOps ops (runOps [op] w) := by
  cases op <;> simp [runOps]

/-- C06: refinement.  For every sequence of exports and index resets, the manager with its disk
behaves like the abstract store: all fields share one next index and loading any index of any
field returns the value and time of the last export made under that index. -/
theorem C06_manager_refines (ops : List (Op V)) (m : Manager) (d : Disk V) (a : Abs V)
    (hr : Rel m d a) :
    Rel (runOps ops (m, d)).1 (runOps ops (m, d)).2 (ops.foldl Abs.step a) := by
  induction ops generalizing m d a with
  | nil => simpa [runOps] using hr
  | cons op ops ih =>
    rw [runOps_cons, List.foldl_cons]
    exact ih _ _ _ (rel_step m d a op hr)

/-- C06: the `n`-th export after starting from index `s` is found under index `s + n`. -/
theorem C06_nth_export (m : Manager) (s : ℕ) (vals : ℕ → ℕ → V) (ts : ℕ → ℚ) (N : ℕ)
    (hn : (m.map H5.pfx).Nodup)
    (hm : ∀ e ∈ m, e.nextIx = s ∧ e.legacy = false ∧ e.includeTime = true)
    (k : ℕ) (hk : k < m.length) (n : ℕ) (hnN : n < N) :
    load m[k] (runOps ((List.range N).map (fun j => Op.export (vals j) (ts j)))
      (m, fun _ => none)).2 (s + n) = .ok (vals n k, some (ts n)) := by
  have h0 : Rel m (fun _ => none : Disk V) ⟨s, fun _ _ => none⟩ :=
    ⟨hn, hm, by intro k hk i; simp [load]⟩
  have key : ∀ N, Rel (runOps ((List.range N).map (fun j => Op.export (vals j) (ts j)))
      (m, fun _ => none)).1 (runOps ((List.range N).map (fun j => Op.export (vals j) (ts j)))
      (m, fun _ => none)).2
      ⟨s + N, fun k i => if s ≤ i ∧ i < s + N then some (vals (i - s) k, ts (i - s)) else none⟩ ∧
      (runOps ((List.range N).map (fun j => Op.export (vals j) (ts j)))
        (m, fun _ => none)).1.map H5.pfx = m.map H5.pfx := by
    intro N
    induction N with
    | zero =>
      have hfun : (fun (k i : ℕ) => if s ≤ i ∧ i < s + 0 then
          some (vals (i - s) k, ts (i - s)) else none) = fun _ _ => none := by
        funext k i; rw [if_neg (by omega)]
      rw [hfun]; exact ⟨by simpa [runOps] using h0, by simp [runOps]⟩
    | succ N ih =>
      have happ : ∀ (l1 l2 : List (Op V)) (w : Manager × Disk V),
          runOps (l1 ++ l2) w = runOps l2 (runOps l1 w) := by
        intro l1
        induction l1 with
        | nil => intro l2 w; simp [runOps]
        | cons o l1 ihl => intro l2 w; rw [List.cons_append, runOps_cons, ihl, ← runOps_cons]
      rw [List.range_succ, List.map_append, happ, List.map_singleton]
      set w := runOps ((List.range N).map (fun j => Op.export (vals j) (ts j))) (m, fun _ => none)
      have hst := rel_step w.1 w.2 _ (Op.export (vals N) (ts N)) ih.1
      constructor
      · convert hst using 1
        simp only [Abs.step, Abs.mk.injEq]
        refine ⟨by omega, ?_⟩
        funext k i
        by_cases h1 : i = s + N
        · subst h1; simp
        · by_cases h2 : s ≤ i ∧ i < s + N
          · rw [if_pos (by omega), if_neg h1, if_pos h2]
          · rw [if_neg (by omega), if_neg h1, if_neg h2]
      · rw [← ih.2]
        simp only [runOps]
        rw [(mexport_shape (vals N) (ts N) w.1 w.2 0
          (fun e he => (ih.1.lockstep e he).2.1)).1, List.map_map]
        rfl
  obtain ⟨hrel, hp⟩ := key N
  set w := runOps ((List.range N).map (fun j => Op.export (vals j) (ts j))) (m, fun _ => none)
  have hlen : w.1.length = m.length := by
    have := congrArg List.length hp; simpa using this
  have hkw : k < w.1.length := by omega
  have hpk : (w.1[k]).pfx = m[k].pfx := by
    have : (w.1.map H5.pfx)[k]'(by simpa using hkw) = (m.map H5.pfx)[k]'(by simpa using hk) := by
      simp only [hp]
    simpa using this
  have hd := hrel.data k hkw (s + n)
  have hlw := (hrel.lockstep _ (List.getElem_mem hkw)).2.1
  have hlm := (hm _ (List.getElem_mem hk)).2.1
  simp only [load, hlw, hpk] at hd
  simp only [load, hlm]
  rw [if_pos (by omega)] at hd
  have e1 : s + n - s = n := by omega
  rw [e1] at hd
  generalize w.2 (genFilename m[k].pfx false (s + n)) = x at hd ⊢
  match x with
  | none => simp at hd
  | some .broken => simp at hd
  | some (.stored v none) => simp at hd
  | some (.stored v (some t)) =>
    simp only [Option.some.injEq, Prod.mk.injEq] at hd
    simp [hd.1, hd.2]

/-- Non-vacuity: a manager with two fields starting at index 7 satisfies the hypotheses. -/
example : let m : Manager := [⟨"Elevation2d".toList, false, true, 7⟩, ⟨"Velocity2d".toList, false, true, 7⟩]
    (m.map H5.pfx).Nodup ∧ ∀ e ∈ m, e.nextIx = 7 ∧ e.legacy = false ∧ e.includeTime = true := by
  decide +kernel

/-- C06, error branch: exporting without a time to a manager that stores times fails, advances no
index, but destroys the file with the next index of the first field. -/
theorem C06_failed_export (vals : ℕ → V) (e : H5) (es : Manager) (d : Disk V) (k : ℕ)
    (h1 : e.legacy = false) (h2 : e.includeTime = true) :
    (Manager.export vals none (e :: es) d k).1 = e :: es ∧
    (Manager.export vals none (e :: es) d k).2.2 = some .valueError ∧
    load e (Manager.export vals none (e :: es) d k).2.1 e.nextIx = .error .ioError := by
  simp [Manager.export, exportH5, exportAsIndex, h1, h2, load, Disk.put]

/-- C06 for VTK output: after the index has been set once, file numbers and time labels agree for
any number of exports. -/
theorem C06_vtk_after_reset (e : Vtk) (i n : ℕ) :
    ((fun x : Vtk => x.export.1)^[n] (e.setNext i)).export.2 = (i + n, i + n) := by
  have : ∀ n, (fun x : Vtk => x.export.1)^[n] (e.setNext i) = ⟨i + n, i + n⟩ := by
    intro n
    induction n with
    | zero => rfl
    | succ n ih => rw [Function.iterate_succ_apply', ih]; rfl
  rw [this]; rfl

example : ((Vtk.new 0).setNext 41).export.2 = (41, 41) := rfl

/-- C06 is violated for a VTK exporter created with a start index `k ≠ 0`: the files are numbered
from zero (so earlier files are overwritten) although the labels count from `k`. -/
theorem C06_vtk_start_index_violated (k n : ℕ) :
    ((fun x : Vtk => x.export.1)^[n] (Vtk.new k)).export.2 = (n, k + n) := by
  have : ∀ n, (fun x : Vtk => x.export.1)^[n] (Vtk.new k) = ⟨k + n, n⟩ := by
    intro n
    induction n with
    | zero => rfl
    | succ n ih => rw [Function.iterate_succ_apply', ih]; rfl
  rw [this]; rfl

/-- C06: exporting under an explicit index `i` (any index, whatever was exported before) stores the
function and its time under `i`, makes `i + 1` the next index and leaves all other files of the
exporter unchanged. -/
theorem C06_export_as_index {V : Type} (e : H5) (d : Disk V) (i : ℕ) (v : V) (t : ℚ) :
    let r := exportAsIndex e d i v (some t)
    r.2.2 = none ∧ r.1 = { e with nextIx := i + 1 } ∧
    load r.1 r.2.1 i = .ok (v, if e.includeTime && !e.legacy then some t else none) ∧
    ∀ j, j ≠ i → load r.1 r.2.1 j = load e d j := by
  have hne : ∀ j, j ≠ i → genFilename e.pfx e.legacy j ≠ genFilename e.pfx e.legacy i :=
    fun j hj h => hj (genFilename_inj _ _ _ _ _ h).2
  obtain ⟨p, l, it, nx⟩ := e
  cases l <;> cases it <;>
    refine ⟨rfl, rfl, by simp [exportAsIndex, load, Disk.put], fun j hj => ?_⟩ <;>
    simp [exportAsIndex, load, Disk.put, hne j hj]

/-- Re-exporting index 3 after index 7. -/
example : (exportAsIndex ⟨['e'], false, true, 8⟩ (fun _ => none : Disk ℕ) 3 42 (some 1)).1.nextIx = 4 := by
  decide +kernel

/-! ### C07 -/

theorem tryExport_ok (out : String → Write) (fs : List (String × ℕ))
    (h : ∀ f ∈ fs, out f.1 = .ok) :
    tryExport out fs = (fs.map (fun f => (f.1, f.2 + 1)), fs, none) := by
  induction fs with
  | nil => rfl
  | cons f fs ih =>
    obtain ⟨f, ix⟩ := f
    have hf : out f = .ok := h (f, ix) (by simp)
    have := ih (fun x hx => h x (by simp [hx]))
    simp [tryExport, hf, this]

/-- C07, provable part: when no field writer raises, every field is written exactly once, in
order, under its next index, and every index advances by one.  The full property also covers
writers that raise `TypeError`; there it fails, see `C07_double_export_violated`. -/
theorem C07_single_export_partial (out1 out2 : String → Write) (fs : List (String × ℕ))
    (h : ∀ f ∈ fs, out1 f.1 = .ok) :
    solverExport out1 out2 fs = (fs.map (fun f => (f.1, f.2 + 1)), fs, none) := by
  simp [solverExport, tryExport_ok out1 fs h]

example : solverExport (fun _ => .ok) (fun _ => .other) [("elev_2d", 3), ("uv_2d", 3)] =
    ([("elev_2d", 4), ("uv_2d", 4)], [("elev_2d", 3), ("uv_2d", 3)], none) := by decide

theorem tryExport_typeError (out : String → Write) (pre post : List (String × ℕ)) (f : String)
    (ix : ℕ) (h : ∀ g ∈ pre, out g.1 = .ok) (hf : out f = .typeError) :
    tryExport out (pre ++ (f, ix) :: post) =
      (pre.map (fun g => (g.1, g.2 + 1)) ++ (f, ix) :: post, pre, some .typeError) := by
  induction pre with
  | nil => simp [tryExport, hf]
  | cons g pre ih =>
    obtain ⟨g, j⟩ := g
    have hg : out g = .ok := h (g, j) (by simp)
    have := ih (fun x hx => h x (by simp [hx]))
    simp [tryExport, hg, this]

/-- C07 is violated whenever a `TypeError` arises after at least one field was written: all fields
before it are written a second time under the next index, and their indices run ahead of the
others. -/
theorem C07_double_export_violated (out1 out2 : String → Write) (pre post : List (String × ℕ))
    (f : String) (ix : ℕ) (h : ∀ g ∈ pre, out1 g.1 = .ok) (hf : out1 f = .typeError)
    (h2 : ∀ g, out2 g = .ok) :
    solverExport out1 out2 (pre ++ (f, ix) :: post) =
      (pre.map (fun g => (g.1, g.2 + 2)) ++ ((f, ix) :: post).map (fun g => (g.1, g.2 + 1)),
        pre ++ (pre.map (fun g => (g.1, g.2 + 1)) ++ (f, ix) :: post), none) := by
  simp only [solverExport, tryExport_typeError out1 pre post f ix h hf]
  rw [tryExport_ok out2 _ (fun g _ => h2 g.1)]
  simp [Function.comp_def]

example : (solverExport (fun f => if f = "b" then .typeError else .ok) (fun _ => .ok)
    [("a", 0), ("b", 0)]).2.1 = [("a", 0), ("a", 1), ("b", 0)] := by decide

end Verif.Export
