import Mathlib.Analysis.Real.Sqrt
import Mathlib.Algebra.BigOperators.Group.List.Basic

/-!
Model of thetis/inversion_tools.py: the division of the optimiser's lists among the controls, the
progress lists, the stored station series, the station misfit and the cost function.

Floats are real numbers.  A field is a function from its nodes to the reals.  Files, logging, the
clock and parallel communication are left out.
-/

namespace Verif.Invert

/-! ### Controls -/

/-- `ControlManager` of inversion_tools.py:53-88; `isField` is false for a control in the Real space
(lines 77-88).  Functions are identified by numbers. -/
structure CM where
  controls : List ℕ
  mappings : Option (List ℕ)
  isField : Bool

/-- `InversionManager.control_managers` and `_controls_wrapped`, inversion_tools.py:183-184. -/
structure Reg where
  managers : List CM
  wrapped : List ℕ

/-- `add_control`, inversion_tools.py:234-251; `isReal c` says that `c` lives in the Real space,
`tuple` that the controls come as a tuple and not as a list.  `none` is the IndexError of line 74 for an
empty list of masked controls, or the ValueError of line 73 for a tuple, which line 59 wraps in a list.
The number of masks is not compared with the number of controls. -/
def addControl (isReal : ℕ → Bool) (r : Reg) (tuple : Bool) (controls : List ℕ)
    (mappings : Option (List ℕ)) : Option Reg :=
  match mappings with
  | some ms =>
    if tuple = true ∨ controls = [] then none
    else some ⟨r.managers ++ [⟨controls, some ms, false⟩], r.wrapped ++ controls⟩
  | none =>
    some (controls.foldl (fun r f =>
      ⟨r.managers ++ [⟨[f], none, !isReal f⟩], r.wrapped ++ [f]⟩) r)

/-- `control_coeff_list`, inversion_tools.py:259. -/
def coeffList (r : Reg) : List ℕ := r.managers.flatMap fun cm => cm.controls

/-- `num_controls`, inversion_tools.py:338. -/
def numControls (cm : CM) : ℕ :=
  match cm.mappings with
  | some ms => ms.length
  | none => 1

/-- The loop over the managers, inversion_tools.py:336-343: the slice of each. -/
def slices {α : Type*} (l : List α) : List CM → ℕ → List (List α)
  | [], _ => []
  | cm :: cms, ref => (l.drop ref).take (numControls cm) :: slices l cms (ref + numControls cm)

/-- `export` and `export_gradient`, inversion_tools.py:113-126 and 133-150 with `project_control`,
lines 100-107: what is written for a slice; `none` is the assertion or the IndexError.  The projection
of a uniform value is that value; a product with a mask is taken at the nodes. -/
def exported {ι : Type*} (mask : ℕ → ι → ℝ) (cm : CM) (slice : List (ι → ℝ)) : Option (ι → ℝ) :=
  match cm.mappings with
  | some ms => some fun x => (List.zipWith (fun (m : ι → ℝ) k => m x * mask k x) slice ms).sum
  | none =>
    if cm.isField then
      match slice with
      | [f] => some f
      | _ => none
    else slice.head?

/-- Everything written in one call of `update_progress`, inversion_tools.py:335-343. -/
def exportAll {ι : Type*} (mask : ℕ → ι → ℝ) (cms : List CM) (l : List (ι → ℝ)) :
    List (Option (ι → ℝ)) :=
  List.zipWith (exported mask) cms (slices l cms 0)

/-! ### Progress of the optimisation -/

/-- One block of the tape that carries a tag: the tag and the values of the output, one per station
(a number is a list with one entry). -/
abbrev Block := String × List ℝ

/-- `StationObservationManager`: the variable, `station_value_progress` and
`last_recorded_iteration`, inversion_tools.py:674 and 679. -/
structure Som where
  var : String
  series : List (List (List ℝ))
  last : ℤ

/-- The values of the blocks with a tag, in the order of the tape (`tape.get_blocks`). -/
def select (tag : String) (tape : List Block) : List (List ℝ) :=
  (tape.filter fun b => b.1 == tag).map Prod.snd

/-- `collect_time_series`, inversion_tools.py:928-937; `none` is the error of numpy for rows of unequal
length (line 932), or the IndexError for an empty list (line 934). -/
def collect (it : ℤ) (tape : List Block) (s : Som) : Option Som :=
  let ts := select (s.var ++ " observation") tape
  if ¬ (∀ a ∈ ts, ∀ b ∈ ts, a.length = b.length) then none
  else if it = s.last then
    if s.series = [] then none else some { s with series := s.series.dropLast ++ [ts], last := it }
  else some { s with series := s.series ++ [ts], last := it }

/-- `MultiStationObservationManager.collect_time_series`, inversion_tools.py:1050-1051; a single
manager is a list with one entry. -/
def collectAll (it : ℤ) (tape : List Block) : List Som → Option (List Som)
  | [] => some []
  | s :: ss =>
    match collect it tape s with
    | none => none
    | some s' => (collectAll it tape ss).map (s' :: ·)

/-- `InversionManager`, inversion_tools.py:175-200, with the tape and the files written by
`dump_time_series`.  A gradient is known by its norm, a control by the value at its first node. -/
structure St where
  real : Bool
  noExports : Bool
  J : ℝ
  Jreg : ℝ
  Jmis : ℝ
  dJ : Option (List ℝ)
  m : List ℝ
  mP : List (List ℝ)
  JP : List ℝ
  JregP : List ℝ
  JmisP : List ℝ
  dJP : List (List ℝ)
  i : ℕ
  grads : ℕ
  tape : List Block
  soms : List Som
  dumps : List (List (List (List (List ℝ))))

/-- `functional_eval_cb`, inversion_tools.py:355-365, after a replay that leaves `tape` and returns
`j`. -/
def evalCb (j : ℝ) (tape : List Block) (s : St) : Option St :=
  (collectAll s.i tape s.soms).map fun soms =>
    { s with
      J := j, tape := tape, soms := soms,
      Jreg := ((select "reg_eval" tape).map List.sum).sum,
      Jmis := ((select "misfit_eval" tape).map List.sum).sum }

/-- `gradient_eval_cb`, inversion_tools.py:367-371. -/
def gradCb (dj m : List ℝ) (s : St) : St := { s with dJ := some dj, m := m, grads := s.grads + 1 }

/-- `update_progress`, inversion_tools.py:299-346; `none` if there is no gradient (lines 311, 319). -/
def updateProgress (s : St) : Option St :=
  match s.dJ with
  | none => none
  | some [] => none
  | some dj =>
    some { s with
      mP := if s.real then s.mP ++ [s.m] else s.mP,
      JP := s.JP ++ [s.J], JregP := s.JregP ++ [s.Jreg], JmisP := s.JmisP ++ [s.Jmis],
      dJP := s.dJP ++ [dj], i := s.i + 1, grads := 0 }

/-- `dump_time_series`, inversion_tools.py:954-984 and 1057-1058: the content written for each manager;
`none` is the assertion. -/
def dump (s : St) : Option St :=
  if s.soms.all (fun m => decide (0 ≤ m.last)) then
    some { s with dumps := s.dumps ++ [s.soms.map Som.series] }
  else none

/-- `optimization_callback`, inversion_tools.py:533-536. -/
def accept (s : St) : Option St :=
  (updateProgress s).bind fun s => if s.noExports then some s else dump s

/-- The beginning of `minimize`, inversion_tools.py:549-555: the first evaluation and gradient, with
their callbacks. -/
def start (j : ℝ) (tape : List Block) (dj m : List ℝ) (s : St) : Option St :=
  (evalCb j tape { s with grads := 0 }).bind fun s =>
    (updateProgress { gradCb dj m s with J := j }).bind fun s =>
      if s.noExports then some s
      else
        (collectAll s.i s.tape s.soms).bind fun soms => dump { s with soms := soms }

/-- The blocks left on the tape by a forward run: the terms of the regularisation
(inversion_tools.py:1084), then at each of `n` evaluations of the cost function, for each manager in
turn (lines 1042-1043), the station values of its variable (line 909) and its misfit (line 912). -/
def forwardTape (regs : List ℝ) (mgrs : List (String × (ℕ → List ℝ) × (ℕ → ℝ))) (n : ℕ) : List Block :=
  regs.map (fun r => ("reg_eval", [r])) ++
    (List.range n).flatMap fun t =>
      mgrs.flatMap fun g => [(g.1 ++ " observation", g.2.1 t), ("misfit_eval", [g.2.2 t])]

/-- What happens during an optimisation: an evaluation, a gradient, an accepted
step, the beginning of `minimize`. -/
inductive Ev where
  | eval (j : ℝ) (tape : List Block)
  | grad (dj m : List ℝ)
  | accept
  | start (j : ℝ) (tape : List Block) (dj m : List ℝ)

/-- One event. -/
def step : Ev → St → Option St
  | .eval j tape, s => evalCb j tape s
  | .grad dj m, s => some (gradCb dj m s)
  | .accept, s => accept s
  | .start j tape dj m, s => start j tape dj m s

/-- A sequence of events. -/
def run : List Ev → St → Option St
  | [], s => some s
  | e :: es, s => (step e s).bind (run es)

/-- The new manager, inversion_tools.py:174-200, with station managers for the given variables
(lines 674-679). -/
def fresh (real noExports : Bool) (vars : List String) : St :=
  { real := real, noExports := noExports || real, J := 0, Jreg := 0, Jmis := 0, dJ := none, m := [],
    mP := [], JP := [], JregP := [], JmisP := [], dJP := [], i := 0, grads := 0, tape := [],
    soms := vars.map fun v => ⟨v, [], -1⟩, dumps := [] }

/-! ### Stations -/

/-- Position of the smallest entry, the first one if there are several (`numpy.argmin`); 0 for the
empty list. -/
noncomputable def argmin : List ℝ → ℕ
  | [] => 0
  | x :: xs => open Classical in if ∀ y ∈ xs, x ≤ y then 0 else argmin xs + 1

/-- `numpy.allclose` for one pair of numbers, with the default tolerances. -/
def close (a b : ℝ) : Prop := |a - b| ≤ 1e-8 + 1e-5 * |b|

/-- Position of the station for a point of the vertex-only mesh, inversion_tools.py:822-834; `none` is
the assertion. -/
noncomputable def stationIndex (xy : List (ℝ × ℝ)) (p : ℝ × ℝ) : Option ℕ :=
  let dist := xy.map fun q => Real.sqrt ((q.1 - p.1) ^ 2 + (q.2 - p.2) ^ 2)
  let j := argmin dist
  match xy[j]? with
  | none => none
  | some q =>
    open Classical in if close q.1 p.1 ∧ close q.2 p.2 then some j else none

/-- The data of a manager, inversion_tools.py:717-725 (the times default to infinite ones, `none`).
`obs j t` is the linear interpolation of the time series of station `j`, `none` outside its range. -/
structure Data where
  xy : List (ℝ × ℝ)
  obs : ℕ → ℝ → Option ℝ
  startT : ℕ → Option ℝ
  endT : ℕ → Option ℝ
  scaling : ℝ
  weight : ℕ → ℝ

/-- Some start or end time is finite, inversion_tools.py:811. -/
def finiteTimes (d : Data) : Prop :=
  ∃ j < d.xy.length, (d.startT j).isSome ∨ (d.endT j).isSome

/-- The interpolator of station `j` at time `t`, inversion_tools.py:810-812 and 836; `none` is the
ValueError. -/
noncomputable def interp (d : Data) (j : ℕ) (t : ℝ) : Option ℝ :=
  open Classical in
  if finiteTimes d then some ((d.obs j t).getD 0) else d.obs j t

/-- `update_stations_in_use`, inversion_tools.py:783-787, for one station. -/
noncomputable def inUse (d : Data) (j : ℕ) (t : ℝ) : ℝ :=
  open Classical in
  if (∀ s, d.startT j = some s → s ≤ t) ∧ (∀ e, d.endT j = some e → t ≤ e) then 1 else 0

/-- One summand of `eval_cost_function`, inversion_tools.py:911-912, for a point `p` that belongs to
station `j`; `u` is the modelled field. -/
noncomputable def summand (d : Data) (u : ℝ × ℝ → ℝ) (t : ℝ) (p : ℝ × ℝ) (j : ℕ) : Option ℝ :=
  (interp d j t).map fun o => d.scaling * inUse d j t * d.weight j * (o - u p) ^ 2

/-- `eval_cost_function`, inversion_tools.py:887-913, scalar data, for the points `pts` of the
vertex-only mesh in its own order.  The integral over that mesh is the sum over the points. -/
noncomputable def misfit (d : Data) (u : ℝ × ℝ → ℝ) (t : ℝ) : List (ℝ × ℝ) → Option ℝ
  | [] => some 0
  | p :: ps =>
    match stationIndex d.xy p with
    | none => none
    | some j =>
      (summand d u t p j).bind fun a => (misfit d u t ps).map fun b => a + b

/-- `misfit_expr ** 2` for vector data, inversion_tools.py:856-857 and 912. -/
noncomputable def vectorSquare (o u : ℝ × ℝ) : ℝ :=
  (Real.sqrt ((o.1 - u.1) * (o.1 - u.1) + (o.2 - u.2) * (o.2 - u.2))) ^ 2

/-- `apply_weighting`, inversion_tools.py:470-487: `1/var` with the population variance of the
observations of a station; `none` is the division by zero (the value is infinite). -/
noncomputable def varianceWeight (obs : List ℝ) : Option ℝ :=
  let mean : ℝ := obs.sum / obs.length
  let var : ℝ := (obs.map fun o => (o - mean) ^ 2).sum / obs.length
  open Classical in if var = 0 then none else some (1 / var)

/-! ### Cost function -/

/-- The three numbers of the manager, inversion_tools.py:187-189. -/
structure Cost where
  J : ℝ
  Jreg : ℝ
  Jmis : ℝ

/-- `MultiStationObservationManager.eval_cost_function`, inversion_tools.py:1041-1044. -/
def multi (misfits : List ℝ) : ℝ := misfits.foldl (· + ·) 0

/-- The start of the cost function, inversion_tools.py:454-460, with the sum of line 1238. -/
def costInit (regs : List ℝ) : Cost := ⟨regs.sum, regs.sum, 0⟩

/-- `cost_fn`, inversion_tools.py:496-500; `misfits` are the values of the managers at this time. -/
def costFn (c : Cost) (misfits : List ℝ) : Cost :=
  ⟨c.J + multi misfits, c.Jreg, c.Jmis + multi misfits⟩

/-- `RegularizationCalculator.eval_cost_function`, inversion_tools.py:1082-1084; the integral is a
quadrature `q` of pairs (weight, value of the expression); `none` is the TypeError for a scaling
`None`. -/
noncomputable def regEval (scaling : Option ℝ) (q : List (ℝ × ℝ)) : Option ℝ :=
  scaling.map fun s =>
    (q.map fun p => p.1 * (s * p.2 / (q.map Prod.fst).sum)).sum

/-- The expression of `RSpaceRegularizationCalculator`, inversion_tools.py:1210. -/
noncomputable def rspaceExpr (gamma prior eps f : ℝ) : ℝ := gamma * (f - prior) ^ 2 / max |prior| eps

/-- The expression of `GradientRegularizationCalculator`, inversion_tools.py:1130. -/
def gradientExpr (gamma : ℝ) (g : ℝ × ℝ) (h : ℝ) : ℝ := gamma * (g.1 * g.1 + g.2 * g.2) * h ^ 2

/-- The expression of `HessianRegularizationCalculator`, inversion_tools.py:1180. -/
def hessianExpr (gamma : ℝ) (a b c d : ℝ) (h : ℝ) : ℝ :=
  gamma * (a * a + b * b + c * c + d * d) * h ^ 4

/-- The list comprehension of inversion_tools.py:1232-1235 and 1238. -/
noncomputable def regSum {φ : Type*} (quad : φ → ℝ → List (ℝ × ℝ)) (scaling : Option ℝ) :
    List (φ × ℝ) → Option ℝ
  | [] => some 0
  | p :: ps =>
    (regEval scaling (quad p.1 p.2)).bind fun a => (regSum quad scaling ps).map fun b => a + b

/-- `ControlRegularizationManager`, inversion_tools.py:1219-1238: one calculator for each pair of a
control and a parameter; `none` is the assertion of line 1230 or the TypeError.  `quad f g` is the
quadrature of the expression for control `f` and parameter `g`. -/
noncomputable def regManager {φ : Type*} (quad : φ → ℝ → List (ℝ × ℝ)) (fs : List φ) (gammas : List ℝ)
    (scaling : Option ℝ) : Option ℝ :=
  if fs.length = gammas.length then regSum quad scaling (fs.zip gammas) else none

end Verif.Invert
