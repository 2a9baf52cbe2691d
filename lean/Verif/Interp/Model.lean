import Mathlib.Algebra.Order.Ring.Rat
import Mathlib.Data.List.Sort
import Mathlib.Data.Matrix.Mul
import Mathlib.Algebra.BigOperators.Fin

/-!
Model of `thetis/interpolation.py`: time stamps, time search over files, cached linear
interpolation in time, netCDF variable lookup, spatial interpolation weights.
-/

namespace Verif.Interp

/-- `TIMESEARCH_TOL`, interpolation.py:55. -/
def tol : ℚ := 1 / 1000000

/-- `numpy.searchsorted(a, v)` (left side) on a sorted array: the number of entries `< v`.
Simplified: numpy's result on unsorted arrays is not modelled. -/
def searchsorted (a : List ℚ) (v : ℚ) : ℕ := a.countP (fun x => decide (x < v))

/-- `NetCDFTimeParser.find_time_stamp`, interpolation.py:575-585; `none` is `IndexError`. -/
def findTimeStamp (times : List ℚ) (t : ℚ) (previous : Bool) : Option ℕ :=
  let itime : ℤ := (searchsorted times (t + tol) : ℤ) - (if previous then 1 else 0)
  if itime < 0 then none
  else if (times.length : ℤ) ≤ itime then none
  else some itime.toNat

/-- A parsed file: name and stored time stamps (epoch seconds). -/
structure TFile where
  name : ℕ
  times : List ℚ
deriving DecidableEq, Repr

/-- `get_start_time`: the first stored time (files are never empty: interpolation.py:556 fails on
an empty time variable). -/
def TFile.start (f : TFile) : ℚ := f.times.headD 0

/-- Sorting the files by start time, interpolation.py:620-629. -/
def sortFiles (fs : List TFile) : List TFile := fs.mergeSort (fun a b => decide (a.start ≤ b.start))

/-- Result of a search: file, time index, time. -/
abbrev Key := ℕ × ℕ × ℚ

/-- One candidate, interpolation.py:664-670: `none` when the index is out of range or the file has
no such time stamp (both are `IndexError`). -/
def tryCandidate (files : List TFile) (t : ℚ) (previous : Bool) (i : ℕ) : Option Key :=
  match files[i]? with
  | none => none
  | some f =>
    match findTimeStamp f.times t previous with
    | none => none
    | some it => some (f.name, it, f.times.getD it 0)

/-- `NetCDFTimeSearch.find`, interpolation.py:644-673, on the sorted files; times are relative to
the simulation start on both sides, so the offset is dropped.  `none` is the raised exception. -/
def findSorted (files : List TFile) (t : ℚ) (previous : Bool) : Option Key :=
  let ix := searchsorted (files.map TFile.start) (t + tol)
  let candidates := if 0 < ix then [ix - 1, ix]
    else if ix + 1 < files.length then [ix, ix + 1] else [ix]
  candidates.findSome? (tryCandidate files t previous)

/-- `NetCDFTimeSearch` built on an unordered list of files (`assert len(all_files) > 0`). -/
def find (all : List TFile) (t : ℚ) (previous : Bool) : Option Key :=
  if all.length = 0 then none else findSorted (sortFiles all) t previous

/-- `DailyFileTimeSearch.find`, interpolation.py:747-764, with the sorting of lines 702-712. -/
def findDaily (all : List (ℕ × ℚ)) (t : ℚ) (previous : Bool) : Option Key :=
  if all.length = 0 then none else
  let files := all.mergeSort (fun a b => decide (a.2 ≤ b.2))
  let ix := searchsorted (files.map (·.2)) (t + tol)
  let i : ℤ := if previous then (ix : ℤ) - 1 else ix
  if i < 0 then none
  else match files[i.toNat]? with
    | none => none
    | some f => some (f.1, 0, f.2)

/-! ### LinearTimeInterpolator, interpolation.py:767-824 -/

/-- `self.cache`: association list from search results to data. -/
abbrev Cache := List (Key × List ℚ)

def Cache.get? (c : Cache) (k : Key) : Option (List ℚ) := (c.find? (fun e => e.1 = k)).map (·.2)

/-- `_get_from_cache`, interpolation.py:786-792; a failing reader leaves the cache unchanged. -/
def getFromCache (reader : ℕ → ℕ → Option (List ℚ)) (c : Cache) (k : Key) :
    Cache × Option (List ℚ) :=
  match c.get? k with
  | some v => (c, some v)
  | none =>
    match reader k.1 k.2.1 with
    | some v => (c ++ [(k, v)], some v)
    | none => (c, none)

/-- `_clean_cache`, interpolation.py:794-800. -/
def cleanCache (c : Cache) (keep : List Key) : Cache := c.filter (fun e => e.1 ∈ keep)

/-- `RELTOL`, interpolation.py:819. -/
def relTol : ℚ := 1 / 1000000

/-- `__call__`, interpolation.py:802-824.  `none` is an exception (search, reader, assertion; a zero
time difference gives inf/nan, which fails the assertion). -/
def interpolate (search : ℚ → Bool → Option Key) (reader : ℕ → ℕ → Option (List ℚ)) (c : Cache)
    (t : ℚ) : Cache × Option (List ℚ) :=
  match search t true with
  | none => (c, none)
  | some p =>
    match search t false with
    | none => (c, none)
    | some n =>
      match getFromCache reader c p with
      | (c1, none) => (c1, none)
      | (c1, some pv) =>
        match getFromCache reader c1 n with
        | (c2, none) => (c2, none)
        | (c2, some nv) =>
          let c3 := cleanCache c2 [p, n]
          if n.2.2 - p.2.2 = 0 then (c3, none)
          else
            let alpha := (t - p.2.2) / (n.2.2 - p.2.2)
            if alpha ≥ 0 - relTol ∧ alpha ≤ 1 + relTol then
              (c3, some (List.zipWith (fun a b => (1 - alpha) * a + alpha * b) pv nv))
            else (c3, none)

/-- Any sequence of queries from an empty cache. -/
def queries (search : ℚ → Bool → Option Key) (reader : ℕ → ℕ → Option (List ℚ)) : List ℚ → Cache
  | [] => []
  | ts => ts.foldl (fun c t => (interpolate search reader c t).1) []

/-- Scaling of the result, interpolation.py:864-866. -/
def scaled (scalars : Option (List ℚ)) (vals : List ℚ) : List ℚ :=
  match scalars with
  | none => vals
  | some s => List.zipWith (fun v a => v * a) vals s

/-! ### get_ncvar_name, interpolation.py:58-110 -/

/-- A netCDF variable with optional attributes (already lower case: the code compares
`attr.lower()`). -/
structure NcVar where
  name : String
  standardName : Option String
  longName : Option String
deriving DecidableEq, Repr

/-- The test of one variable, interpolation.py:86-96.  A target that is `None` becomes `[None]`,
which no string equals; it is modelled by the empty list. -/
def ncMatches (std long var : List String) (v : NcVar) : Bool :=
  (match v.standardName with | some s => s ∈ std | none => false) ||
  (match v.longName with | some s => s ∈ long | none => false) ||
  (v.name ∈ var)

/-- `get_ncvar_name`: the first variable in file order that matches any criterion. -/
def getNcvarName (vars : List NcVar) (std long var : List String) : Option String :=
  (vars.find? (ncMatches std long var)).map (·.name)

/-! ### GridInterpolator, interpolation.py:113-240 -/

section Grid
variable {d : ℕ}

/-- Barycentric weights of one target point in one simplex, interpolation.py:195-203.
`T` and `r` are the simplex transform of scipy's `Delaunay.transform`: `T` inverts the matrix of
edge vectors from the last vertex `r`. -/
def weights (T : Matrix (Fin d) (Fin d) ℚ) (r x : Fin d → ℚ) : Fin (d + 1) → ℚ :=
  let bary := T.mulVec (x - r)
  Fin.snoc bary (1 - ∑ j, bary j)

/-- The documented meaning of `Delaunay.transform`. -/
def IsTransform (T : Matrix (Fin d) (Fin d) ℚ) (v : Fin (d + 1) → Fin d → ℚ) : Prop :=
  T * Matrix.of (fun k j => v (Fin.castSucc j) k - v (Fin.last d) k) = 1

/-- How a point outside is filled. -/
inductive Fill
  | const (c : ℚ)
  | nearest (ix : ℕ)

/-- `__call__`, interpolation.py:229-240, for one target point: `T = none` stands for a NaN
transform (degenerate simplex); `vtx` are the indices of the vertices. -/
def gridInterp (T : Option (Matrix (Fin d) (Fin d) ℚ)) (r x : Fin d → ℚ) (vtx : Fin (d + 1) → ℕ)
    (values : ℕ → ℚ) (fill : Fill) : ℚ :=
  let filled := match fill with | .const c => c | .nearest ix => values ix
  match T with
  | none => filled
  | some T =>
    if (∃ j, weights T r x j < 0) then filled else ∑ j, values (vtx j) * weights T r x j

/-- `normalize=True`, interpolation.py:167-184: coordinate `k` of both grids becomes
`a k * x k + b k`. -/
def normalise (a b : Fin d → ℚ) (x : Fin d → ℚ) : Fin d → ℚ := fun k => a k * x k + b k

/-- `get_norm_params`, interpolation.py:169-176: `none` for division by zero. -/
def normParams (xs : List ℚ) : Option (ℚ × ℚ) :=
  match xs.min?, xs.max? with
  | some lo, some hi => if hi - lo = 0 then none else some (1 / (hi - lo), -lo * (1 / (hi - lo)))
  | _, _ => none

/-- Lines 178-180: three columns are always accessed; `none` is an exception. -/
def normSetup (columns : List (List ℚ)) : Option (List (ℚ × ℚ)) :=
  match columns with
  | x :: y :: z :: _ => do
    let a ← normParams x
    let b ← normParams y
    let c ← normParams z
    pure [a, b, c]
  | _ => none

end Grid

end Verif.Interp
