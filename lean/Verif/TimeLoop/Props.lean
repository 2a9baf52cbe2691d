import Verif.TimeLoop.Lemmas
import Mathlib.Order.Bounds.Basic

/-!
Properties C01 (time grid), C02 (export schedule) and C03 (restart).
-/

namespace Verif.TimeLoop

/-- C01: for a positive time step the loop terminates; the number `N` of steps is
characterised by "a step is taken from grid time `t` iff `t ≤ tEnd - 1e-5`"; the times
seen by `advance`, the (iteration, time) pairs seen by the callbacks and the final clock
are those of the regular grid. -/
theorem C01_time_grid (d : Dim) (c : Cfg) (s : Solver) (t0 : ℚ) (hdt : 0 < c.dt)
    (ht : s.time = some t0) :
    ∃ (N : ℕ) (s' : Solver) (evs : List Ev),
      (∀ fuel, N < fuel → iterate d c fuel s = .done s' evs) ∧
      (∀ fuel, fuel ≤ N → iterate d c fuel s = .unfinished) ∧
      (∀ k : ℕ, k < N ↔ t0 + k * c.dt ≤ c.tEnd - 1 / 100000) ∧
      s'.time = some (t0 + N * c.dt) ∧ s'.iteration = s.iteration + N ∧
      c.tEnd - 1 / 100000 < t0 + N * c.dt ∧
      (0 < N → t0 + N * c.dt ≤ c.tEnd + c.dt - 1 / 100000) ∧
      evs.filterMap advTime = (List.range N).map (fun k : ℕ => t0 + (k : ℚ) * c.dt) ∧
      evs.filterMap cbAt =
        (List.range N).map (fun k => (s.iteration + (k + 1), t0 + ((k + 1 : ℕ) : ℚ) * c.dt)) := by
  have hk := lt_steps_iff c t0 hdt
  set N := steps c t0 with hN
  set L := startLoop d c s t0 with hL
  have hev0a : (startEvents s t0).filterMap advTime = [] := by
    unfold startEvents; split <;> simp [List.filterMap_cons, advTime]
  have hev0c : (startEvents s t0).filterMap cbAt = [] := by
    unfold startEvents; split <;> simp [List.filterMap_cons, cbAt]
  refine ⟨N, finish d s (iterN c t0 N L).1, startEvents s t0 ++ (iterN c t0 N L).2,
    fun fuel hf => iterate_eq d c s t0 hdt ht fuel hf,
    fun fuel hf => iterate_unfinished d c s t0 hdt ht fuel hf, hk, ?_, ?_, ?_, ?_, ?_, ?_⟩
  · simp [finish, iterN_time c t0 N L rfl rfl]
  · exact (iterN_internal c t0 N L).2
  · have := (hk N).not.1 (lt_irrefl _)
    unfold tEps at this; linarith
  · intro hpos
    have := (hk (N - 1)).1 (by omega)
    rw [Nat.cast_sub (by omega)] at this
    unfold tEps at this
    push_cast at this
    linarith
  · rw [List.filterMap_append, hev0a, iterN_adv c t0 N L rfl rfl]; rfl
  · rw [List.filterMap_append, hev0c, iterN_cb c t0 N L rfl]; rfl

/-- Non-vacuity of C01: end time 1 with step 3/10 takes four steps. -/
example : (match iterate .two ⟨3/10, 1/2, 1⟩ 10 (fresh ⟨3/10, 1/2, 1⟩) with
    | .done s _ => s.time | _ => none) = some (6/5) := by decide +kernel

/-- Reference time of the export schedule: in 2D the start of this run, in 3D one interval
before the stored next export time. -/
def schedBase (d : Dim) (c : Cfg) (s : Solver) (t0 : ℚ) : ℚ :=
  match d with
  | .two => t0
  | .three => s.nextExportT - c.expT

/-- The initial export made when `export_initial_state` is set. -/
def initialExport (s : Solver) (t0 : ℚ) : List (ℕ × ℕ × ℚ) :=
  if s.exportInit then [(s.iExport, s.nextIx, t0)] else []

/-- C02: if `dt ≤ expT` then, after the initial export, exports `1..E` are made, the `j`-th
at the first step whose time is at least `base + j*expT - 1e-5`, with consecutive solver
indices and consecutive file indices; `E` counts exactly the export times reached by the end
of the run. -/
theorem C02_export_schedule (d : Dim) (c : Cfg) (s : Solver) (t0 : ℚ) (hdt : 0 < c.dt)
    (hle : c.dt ≤ c.expT) (ht : s.time = some t0)
    (hb1 : schedBase d c s t0 ≤ t0 + 1 / 100000)
    (hb2 : t0 + 1 / 100000 < schedBase d c s t0 + c.expT)
    (fuel : ℕ) (s' : Solver) (evs : List Ev) (hrun : iterate d c fuel s = .done s' evs) :
    ∃ (E : ℕ) (stepOf : ℕ → ℕ),
      evs.filterMap expAt = initialExport s t0 ++
        (List.range E).map (fun j => (s.iExport + (j + 1),
          s.nextIx + (initialExport s t0).length + j, t0 + (stepOf (j + 1) : ℚ) * c.dt)) ∧
      (∀ j : ℕ, 1 ≤ j → IsLeast {n : ℕ | schedBase d c s t0 + j * c.expT - 1 / 100000
          ≤ t0 + n * c.dt} (stepOf j)) ∧
      (∀ j : ℕ, j ≤ E ↔ ∃ tf, s'.time = some tf ∧ schedBase d c s t0 + j * c.expT - 1 / 100000 ≤ tf) ∧
      s'.iExport = s.iExport + E ∧
      s'.nextIx = s.nextIx + (initialExport s t0).length + E := by
  have hT : 0 < c.expT := lt_of_lt_of_le hdt hle
  set L := startLoop d c s t0 with hL
  have hixl : L.nextIx = s.nextIx + (initialExport s t0).length := by
    rw [hL]; unfold initialExport startLoop; by_cases h : s.exportInit = true <;> simp [h]
  have hev0 : (startEvents s t0).filterMap expAt = initialExport s t0 := by
    unfold startEvents initialExport; split <;> simp [expAt]
  set off := t0 - schedBase d c s t0 with hoff
  have hnext : L.nextT = t0 - off + c.expT := by
    rw [hL, hoff]; cases d <;> simp [schedBase, startLoop]
  have hf := fuel_of_done d c s t0 hdt ht fuel s' evs hrun
  rw [iterate_eq d c s t0 hdt ht fuel hf] at hrun
  simp only [Outcome.done.injEq] at hrun
  obtain ⟨rfl, rfl⟩ := hrun
  set N := steps c t0
  have hepsE : tEps = 1 / 100000 := rfl
  obtain ⟨⟨hB1, hB2⟩, h1, h2, h3, h4⟩ := schedule c t0 off hdt hle
    (by rw [hepsE]; linarith) (by rw [hepsE]; linarith) N L rfl hnext
  refine ⟨nExp c off N, firstStep c off, ?_, ?_, ?_, ?_, ?_⟩
  · rw [List.filterMap_append, hev0, h4, ← hixl]; rfl
  · intro j hj
    have hjq : (1 : ℚ) ≤ j := by exact_mod_cast hj
    have hpos : 0 < ((j : ℚ) * c.expT - off - tEps) / c.dt := by
      apply div_pos _ hdt
      rw [hepsE]; nlinarith
    have hcz : ((⌈((j : ℚ) * c.expT - off - tEps) / c.dt⌉.toNat : ℕ) : ℤ)
        = ⌈((j : ℚ) * c.expT - off - tEps) / c.dt⌉ :=
      Int.toNat_of_nonneg (Int.ceil_nonneg hpos.le)
    constructor
    · have h := Int.le_ceil (((j : ℚ) * c.expT - off - tEps) / c.dt)
      rw [← hcz, div_le_iff₀ hdt] at h
      simp only [Set.mem_ofPred_eq, firstStep]
      rw [hepsE] at h ⊢
      push_cast at h
      linarith
    · intro n hn
      simp only [Set.mem_ofPred_eq] at hn
      unfold firstStep
      rw [Int.toNat_le, Int.ceil_le, div_le_iff₀ hdt, hepsE]
      push_cast
      linarith
  · intro j
    have htf : (iterN c t0 N L).1.t = t0 + N * c.dt := iterN_time c t0 N L rfl rfl
    simp only [finish, ← hL, Option.some.injEq, exists_eq_left', htf]
    constructor
    · intro hj
      have : (j : ℚ) ≤ nExp c off N := by exact_mod_cast hj
      rw [hepsE] at hB1
      nlinarith
    · intro hj
      by_contra hcon
      have : (nExp c off N : ℚ) + 1 ≤ j := by
        have : nExp c off N + 1 ≤ j := by omega
        exact_mod_cast this
      rw [hepsE] at hB2
      nlinarith
  · exact h1
  · rw [← hixl]; exact h2

/-- Non-vacuity of C02: step 3/10, interval 1/2, end 2: exports at 3/5, 6/5, 3/2, 21/10. -/
example : (match iterate .two ⟨3/10, 1/2, 2⟩ 20 (fresh ⟨3/10, 1/2, 2⟩) with
    | .done _ evs => evs.filterMap expAt | _ => []) =
    [(0, 0, 0), (1, 1, 3/5), (2, 2, 6/5), (3, 3, 3/2), (4, 4, 21/10)] := by decide +kernel

/-- C02, coarse steps: if `dt > expT` every step exports (2D driver), so the schedule of one
export per interval cannot be kept. -/
theorem C02_coarse_steps (c : Cfg) (s : Solver) (t0 : ℚ) (hdt : 0 < c.dt) (hT : c.expT < c.dt)
    (ht : s.time = some t0) (fuel : ℕ) (s' : Solver) (evs : List Ev)
    (hrun : iterate .two c fuel s = .done s' evs) :
    s'.iExport - s.iExport = s'.iteration - s.iteration ∧
    evs.filterMap expAt = initialExport s t0 ++
      (List.range (s'.iteration - s.iteration)).map (fun j => (s.iExport + (j + 1),
        s.nextIx + (initialExport s t0).length + j, t0 + ((j + 1 : ℕ) : ℚ) * c.dt)) := by
  set L := startLoop .two c s t0 with hL
  have hixl : L.nextIx = s.nextIx + (initialExport s t0).length := by
    rw [hL]; unfold initialExport startLoop; by_cases h : s.exportInit = true <;> simp [h]
  have hev0 : (startEvents s t0).filterMap expAt = initialExport s t0 := by
    unfold startEvents initialExport; split <;> simp [expAt]
  have hf := fuel_of_done .two c s t0 hdt ht fuel s' evs hrun
  rw [iterate_eq .two c s t0 hdt ht fuel hf] at hrun
  simp only [Outcome.done.injEq] at hrun
  obtain ⟨rfl, rfl⟩ := hrun
  have key : ∀ n : ℕ, (iterN c t0 n L).1.iExport = L.iExport + n ∧
      (iterN c t0 n L).1.nextIx = L.nextIx + n ∧
      (iterN c t0 n L).1.nextT = L.nextT + n * c.expT ∧
      (iterN c t0 n L).2.filterMap expAt = (List.range n).map (fun j => (L.iExport + (j + 1),
        L.nextIx + j, t0 + ((j + 1 : ℕ) : ℚ) * c.dt)) := by
    intro n
    induction n with
    | zero => simp [iterN]
    | succ n ih =>
      obtain ⟨h1, h2, h3, h4⟩ := ih
      have hint := (iterN_internal c t0 n L).1
      have hc : t0 + ((L.internal + n + 1 : ℕ) : ℚ) * c.dt ≥ (L.nextT + n * c.expT) - tEps := by
        have : (0 : ℚ) ≤ n := Nat.cast_nonneg n
        simp only [hL, startLoop, tEps]; push_cast
        nlinarith
      rw [iterN_succ_last]
      simp only [body, hint, h1, h2, h3]
      rw [if_pos hc]
      refine ⟨by simp [Nat.add_assoc], by simp [Nat.add_assoc], by push_cast; ring, ?_⟩
      rw [List.filterMap_append, h4, List.range_succ, List.map_append]
      simp [List.filterMap_cons, expAt, Nat.add_assoc, show L.internal = 0 from rfl]
  have hit := (iterN_internal c t0 (steps c t0) L).2
  obtain ⟨h1, -, -, h4⟩ := key (steps c t0)
  have hLi : L.iteration = s.iteration := rfl
  have hLe : L.iExport = s.iExport := rfl
  have e1 : (iterN c t0 (steps c t0) L).1.iteration - s.iteration = steps c t0 := by
    rw [hit, hLi]; simp
  refine ⟨?_, ?_⟩
  · simp only [finish, ← hL, e1, h1, hLe]; simp
  · simp only [finish, ← hL, e1]
    rw [List.filterMap_append, hev0, h4, hixl, hLe]

example : (match iterate .two ⟨1, 1/2, 2⟩ 20 (fresh ⟨1, 1/2, 2⟩) with
    | .done s evs => (s.iExport, s.iteration, (evs.filterMap expAt).length)
    | _ => (0, 0, 0)) = (2, 2, 3) := by decide +kernel

/-! ### Restart -/

/-- C03: with an export interval of `m ≥ 1` steps (each longer than the tolerance), take any
run from time zero that reaches export `i`.  Its event list splits into `pre`, ending with
export `i`, and `post`.  At *every* later crash point (any event list `q` between `pre` and the
complete list) the checkpoint `i` carries time `i*expT`, and resuming from it in the same
directory produces exactly the events `post` (same iterations, times, export indices and file
indices), ending with the same clock; resuming into another directory produces the same after
re-exporting the initial state under the same index.  A legacy checkpoint without meta data
gives the same continuation. -/
theorem C03_restart (d : Dim) (c : Cfg) (m i : ℕ) (hm : 0 < m) (hdt : 1 / 100000 < c.dt)
    (hT : c.expT = m * c.dt) (hreach : (i : ℚ) * c.expT < c.tEnd - 1 / 100000 + c.dt)
    (fuel : ℕ) (sF : Solver) (full : List Ev)
    (hrun : iterate d c fuel (fresh c) = .done sF full) :
    ∃ pre post, full = pre ++ post ∧ pre.getLast? = some (.exp i i (i * c.expT)) ∧
      (∀ q, pre <+: q → q <+: full → storedTime q i = some (i * c.expT)) ∧
      (∀ md, md = Meta.stamp (i * c.expT) ∨ md = Meta.absent →
        ∃ sR, iterate d c fuel (loadState c md i true {}) = .done sR post ∧
          sR.iteration = sF.iteration ∧ sR.time = sF.time ∧ sR.iExport = sF.iExport ∧
          sR.nextIx = sF.nextIx ∧ (d = .three → sR.nextExportT = sF.nextExportT)) ∧
      (∀ md, md = Meta.stamp (i * c.expT) ∨ md = Meta.absent →
        ∃ sR, iterate d c fuel (loadState c md i false {}) =
            .done sR (.exp i i (i * c.expT) :: post) ∧
          sR.iteration = sF.iteration ∧ sR.time = sF.time ∧ sR.iExport = sF.iExport ∧
          sR.nextIx = sF.nextIx ∧ (d = .three → sR.nextExportT = sF.nextExportT)) := by
  have hdt0 : 0 < c.dt := by linarith
  have hmq : (1 : ℚ) ≤ m := by exact_mod_cast hm
  have hle : c.dt ≤ c.expT := by rw [hT]; nlinarith
  have hTpos : 0 < c.expT := by linarith
  have hepsE : tEps = 1 / 100000 := rfl
  -- number of steps
  have hK : i * m ≤ steps c 0 := by
    by_contra hcon
    push Not at hcon
    have := (lt_steps_iff c 0 hdt0 (steps c 0)).not.1 (lt_irrefl _)
    have h2 : (steps c 0 : ℚ) + 1 ≤ (i * m : ℕ) := by exact_mod_cast hcon
    push_cast at h2
    rw [hepsE] at this
    rw [hT] at hreach
    nlinarith
  have hf := fuel_of_done d c (fresh c) 0 hdt0 rfl fuel sF full hrun
  rw [iterate_eq d c (fresh c) 0 hdt0 rfl fuel hf] at hrun
  simp only [Outcome.done.injEq] at hrun
  obtain ⟨rfl, rfl⟩ := hrun
  set L0 := startLoop d c (fresh c) 0 with hL0
  have hL0n : L0.nextT = 0 + c.expT := by rw [hL0]; cases d <;> rfl
  have hse : startEvents (fresh c) 0 = [.exp 0 0 0] := rfl
  set K := i * m with hKdef
  have hKq : (K : ℚ) * c.dt = i * c.expT := by rw [hT, hKdef]; push_cast; ring
  have hsplit := steps_shift c 0 hdt0 K hK
  set R := steps c (0 + K * c.dt) with hR
  -- state after K steps
  set A := iterN c 0 K L0 with hA
  have hnE : nExp c 0 K = i := by
    apply nExp_spec c 0 hTpos
    · rw [hKq, hepsE]; linarith
    · rw [hKq, hepsE]; nlinarith
  obtain ⟨-, hs1, hs2, hs3, -⟩ := schedule c 0 0 hdt0 hle (by rw [hepsE]; norm_num)
    (by rw [hepsE]; linarith) K L0 rfl (by rw [hL0n]; simp)
  rw [hnE] at hs1 hs2 hs3
  have hi1 := iterN_internal c 0 K L0
  have ht1 := iterN_time c 0 K L0 rfl rfl
  rw [← hA] at hs1 hs2 hs3 hi1 ht1
  -- resumed loop state
  set B : LoopSt := LoopSt.mk 0 K (0 + K * c.dt) i (c.expT + i * c.expT) (i + 1) with hB
  have hAB : A.1 = { B with internal := B.internal + K } := by
    have e : A.1 = ⟨A.1.internal, A.1.iteration, A.1.t, A.1.iExport, A.1.nextT, A.1.nextIx⟩ := rfl
    rw [e, hi1.1, hi1.2, ht1, hs1, hs2, hs3, hL0n]
    simp [hB, hL0, startLoop, fresh, Nat.add_comm]
  obtain ⟨hsh1, hsh2⟩ := iterN_shift c 0 K R A.1 B hAB
  have hfull : iterN c 0 (steps c 0) L0 =
      ((iterN c 0 R A.1).1, A.2 ++ (iterN c 0 R A.1).2) := by
    rw [hsplit, iterN_add]
  have hceil : (⌈(i : ℚ) * c.expT / c.dt⌉).toNat = K := by
    have : (i : ℚ) * c.expT / c.dt = ((K : ℤ) : ℚ) := by
      rw [← hKq]; field_simp; simp
    rw [this, Int.ceil_intCast]; simp
  have hRf : R < fuel := by omega
  have hlp := loop_eq c (0 + K * c.dt) hdt0 B rfl rfl fuel hRf
  rw [← hR] at hlp
  have hlast : (Ev.exp 0 0 0 :: A.2).getLast? = some (.exp i i (i * c.expT)) := by
    rcases Nat.eq_zero_or_pos i with rfl | hi
    · have : K = 0 := by rw [hKdef]; simp
      rw [hA, this]; simp [iterN]
    · have hKp : 0 < K := Nat.mul_pos hi hm
      obtain ⟨n, hn⟩ : ∃ n, K = n + 1 := ⟨K - 1, by omega⟩
      obtain ⟨i', rfl⟩ : ∃ i', i = i' + 1 := ⟨i - 1, by omega⟩
      have hnq : (n : ℚ) * c.dt = i' * c.expT + c.expT - c.dt := by
        have : ((n + 1 : ℕ) : ℚ) * c.dt = ((i' + 1 : ℕ) : ℚ) * c.expT := by rw [← hn]; exact hKq
        push_cast at this; linarith
      have hnE' : nExp c 0 n = i' := by
        apply nExp_spec c 0 hTpos
        · rw [hnq, hepsE]; linarith
        · rw [hnq, hepsE]; linarith
      obtain ⟨-, hq1, hq2, hq3, -⟩ := schedule c 0 0 hdt0 hle (by rw [hepsE]; norm_num)
        (by rw [hepsE]; linarith) n L0 rfl (by rw [hL0n]; simp)
      rw [hnE'] at hq1 hq2 hq3
      have hin := (iterN_internal c 0 n L0).1
      have hkq' : ((n : ℚ) + 1) * c.dt = (i' + 1) * c.expT := by linarith
      rw [hA, hn, iterN_succ_last]
      have hc : (0 : ℚ) + (((iterN c 0 n L0).1.internal + 1 : ℕ) : ℚ) * c.dt ≥
          (iterN c 0 n L0).1.nextT - tEps := by
        rw [hin, hq3, hepsE, hL0n, show L0.internal = 0 from rfl]; push_cast
        rw [zero_add, zero_add, hkq']; linarith
      simp only [body]
      rw [if_pos hc]
      simp only [hq1, hq2, hin]
      rw [← List.cons_append, List.getLast?_append]
      simp [hL0, startLoop, fresh, hkq', Nat.add_comm]
  have hpost : ∀ a j u, Ev.exp a j u ∈ (iterN c 0 R A.1).2 → j ≠ i := by
    intro a j u hmem
    have := (iterN_exp_ix_ge c 0 R A.1).2 a j u hmem
    rw [hs2] at this
    simp [hL0, startLoop, fresh] at this
    omega
  have hst : storedTime (Ev.exp 0 0 0 :: A.2) i = some (i * c.expT) := by
    have hne : (Ev.exp 0 0 0 :: A.2) ≠ [] := by simp
    rw [List.getLast?_eq_some_getLast hne] at hlast
    have hl := Option.some.inj hlast
    unfold storedTime
    rw [← List.dropLast_append_getLast hne, hl]
    simp [stampOf]
  refine ⟨Ev.exp 0 0 0 :: A.2, (iterN c 0 R A.1).2, by rw [hfull]; rfl, hlast, ?_, ?_, ?_⟩
  · intro q hq1 hq2
    obtain ⟨r, rfl⟩ := hq1
    obtain ⟨r', hr'⟩ := hq2
    apply storedTime_append_fresh _ _ _ _ hst
    intro a j u hmem
    apply hpost a j u
    rw [hfull, List.append_assoc] at hr'
    have : r ++ r' = (iterN c 0 R A.1).2 := by
      have h2 : (Ev.exp 0 0 0 :: (A.2, (iterN c 0 R A.1).2).1) ++ (r ++ r') =
        (Ev.exp 0 0 0 :: A.2) ++ (iterN c 0 R A.1).2 := hr'
      exact List.append_cancel_left h2
    rw [← this]; simp [hmem]
  · intro md hmd
    have hload : loadState c md i true {} =
        { iteration := K, time := some (0 + K * c.dt), iExport := i,
          nextExportT := i * c.expT + c.expT, exportInit := false, nextIx := i + 1 } := by
      rcases hmd with rfl | rfl <;> simp [loadState, Meta.get, hceil, hKq]
    have hst2 : startLoop d c (loadState c md i true {}) (0 + K * c.dt) = B := by
      rw [hload, hB]; cases d <;> simp [startLoop, hKq, add_comm]
    have hit := iterate_eq d c (loadState c md i true {}) (0 + K * c.dt) hdt0
      (by rw [hload]) fuel hRf
    rw [← hR, hst2, ← hsh1] at hit
    have hse2 : startEvents (loadState c md i true {}) (0 + K * c.dt) = [] := by
      simp [startEvents, hload]
    rw [hse2, List.nil_append] at hit
    refine ⟨_, hit, ?_⟩
    simp only [finish, hfull, hsh2]
    refine ⟨trivial, trivial, trivial, trivial, ?_⟩
    intro hd; subst hd; rfl
  · intro md hmd
    have hload : loadState c md i false {} =
        { iteration := K, time := some (0 + K * c.dt), iExport := i,
          nextExportT := i * c.expT + c.expT, exportInit := true, nextIx := i } := by
      rcases hmd with rfl | rfl <;> simp [loadState, Meta.get, hceil, hKq]
    have hst2 : startLoop d c (loadState c md i false {}) (0 + K * c.dt) = B := by
      rw [hload, hB]; cases d <;> simp [startLoop, hKq, add_comm]
    have hit := iterate_eq d c (loadState c md i false {}) (0 + K * c.dt) hdt0
      (by rw [hload]) fuel hRf
    rw [← hR, hst2, ← hsh1] at hit
    have hse2 : startEvents (loadState c md i false {}) (0 + K * c.dt) =
        [.exp i i (i * c.expT)] := by
      simp [startEvents, hload, hKq]
    rw [hse2, List.singleton_append] at hit
    refine ⟨_, hit, ?_⟩
    simp only [finish, hfull, hsh2]
    refine ⟨trivial, trivial, trivial, trivial, ?_⟩
    intro hd; subst hd; rfl

/-- Non-vacuity of C03: `dt = 1/2`, three steps per export, end 7: the run finishes after 14
steps and four exports, and resuming from export 2 yields the suffix of the event list. -/
example : let c : Cfg := ⟨1/2, 3/2, 7⟩
    let full := iterate .two c 100 (fresh c)
    let res := iterate .two c 100 (loadState c (.stamp 3) 2 true {})
    full.solver?.map (fun s => (s.iteration, s.iExport)) = some (14, 4) ∧
    res.events <:+ full.events ∧ res.events ≠ [] := by decide +kernel

/-- C03, violated part 1: a checkpoint written without a time attribute (the loader then
reports the entry `time = None`, exporter.py:231-234) does not fall back to
`iteration * dt`: `metadata.get('time', default)` returns `None` and the run fails with a
`TypeError`, for every configuration and index. -/
theorem C03_missing_stamp_violated (d : Dim) (c : Cfg) (i : ℕ) (sameDir : Bool) (fuel : ℕ) :
    iterate d c fuel (loadState c .noAttr i sameDir {}) = .typeError := by
  simp [iterate, loadState, Meta.get]

/-- C03, violated part 2: if the export interval is not a multiple of the step, a 2D restart
shifts all later exports.  Step 2/3, interval 1: the uninterrupted run makes its second export
at time 2, the run resumed from export 1 (time 4/3) makes it at time 8/3. -/
theorem C03_nondivisible_violated :
    let c : Cfg := ⟨2/3, 1, 3⟩
    let full := iterate .two c 100 (fresh c)
    let res := iterate .two c 100 (loadState c (.stamp (4/3)) 1 true {})
    full.solver?.isSome ∧ res.solver?.isSome ∧ storedTime full.events 1 = some (4/3) ∧
      Ev.exp 2 2 2 ∈ full.events ∧ Ev.exp 2 2 (8/3) ∈ res.events ∧
      ¬ (res.events <:+ full.events) := by
  decide +kernel

/-- Running the loop a second time in the same object (for example after raising the end
time) exports the initial state again: the file index runs ahead of the solver's export
counter.  Recorded as a violation of "file index equals export counter". -/
theorem C03_second_iterate_violated :
    let c1 : Cfg := ⟨1, 1, 2⟩
    let c2 : Cfg := ⟨1, 1, 3⟩
    let r1 := iterate .two c1 100 (fresh c1)
    ∃ s1, r1.solver? = some s1 ∧
      (r1.events.filterMap expAt).map (fun x => (x.1, x.2.1)) = [(0, 0), (1, 1), (2, 2)] ∧
      ((iterate .two c2 100 s1).events.filterMap expAt).map (fun x => (x.1, x.2.1)) =
        [(2, 3), (3, 4)] := by
  exact ⟨⟨2, some 2, 2, 1, true, 3⟩, by decide +kernel, by decide +kernel, by decide +kernel⟩

/-- C03: what `load_state` restores.  A stored time stamp is used as it is (whether or not it is on
the grid of steps); a user supplied time, iteration or export number has precedence; without a time stamp
in the file (legacy format) the time is the restored iteration times the step. -/
theorem C03_load (c : Cfg) (i : ℕ) (sameDir : Bool) (o : Overrides) (t : ℚ) :
    (o.t = none → (loadState c (.stamp t) i sameDir o).time = some t) ∧
    (o.t = none → (loadState c .absent i sameDir o).time =
      some ((loadState c .absent i sameDir o).iteration * c.dt)) ∧
    (∀ md t', o.t = some t' → (loadState c md i sameDir o).time = some t') ∧
    (∀ md n, o.iteration = some n → (loadState c md i sameDir o).iteration = n) ∧
    (∀ md, (loadState c md i sameDir o).iExport = o.iExport.getD i ∧
      (loadState c md i sameDir o).nextIx =
        o.iExport.getD i + (if sameDir then 1 else 0)) := by
  refine ⟨fun h => ?_, fun h => ?_, fun md t' h => ?_, fun md n h => ?_, fun md => ⟨rfl, ?_⟩⟩
  · simp [loadState, h, Meta.get]
  · simp [loadState, h, Meta.get]
  · simp [loadState, h]
  · simp [loadState, h]
  · cases sameDir <;> simp [loadState]

/-- Restarting from export 3 stamped with an off-grid time. -/
example : (loadState ⟨1, 10, 100⟩ (.stamp (61 / 2)) 3 true {}).time = some (61 / 2) ∧
    (loadState ⟨1, 10, 100⟩ (.stamp (61 / 2)) 3 true {}).iteration = 30 := by decide +kernel

end Verif.TimeLoop
