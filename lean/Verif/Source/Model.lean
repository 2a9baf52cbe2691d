import Mathlib.Algebra.Order.Field.Rat
import Mathlib.Algebra.Order.Floor.Ring
import Mathlib.Data.Rat.Floor
import Mathlib.Data.List.Dedup
import Mathlib.Data.List.Sort

/-!
Model of the adapters that bring output of ocean and atmosphere models onto the mesh: grids of ROMS,
NCOM and of generic latitude-longitude files, the choice of the source nodes that are used, the order
in which coordinates and data are collected, and the assignment of variables to fields
(`thetis/forcing.py`, `thetis/interpolation.py`).

Floating point numbers are rationals.  Files are functions of the index of a node; two-dimensional
arrays are numbered by their raveled index (row by row).  scipy's `Delaunay` and `cKDTree` are trusted:
they enter by the triangles they return and by the meaning of "nearest".  Weights and filling are the
subject of `Verif.Interp`.
-/

namespace Verif.Source

/-! ### Levels of ROMS, forcing.py:672-692 -/

/-- `ss`, forcing.py:687: the stretching `S` of the transformation. -/
def romsStretch (hc h s cs : ℚ) : ℚ := (hc * s + h * cs) / (hc + h)

/-- `grid_z_w`, forcing.py:688: height of a face between two layers. -/
def romsFace (zeta hc h s cs : ℚ) : ℚ :=
  zeta * (1 + romsStretch hc h s cs) + h * romsStretch hc h s cs

/-- The elevation that is used, forcing.py:683-686.  `constant_zeta` is tested for truth, and `0.0` is
false. -/
def romsZeta (file : ℚ) (constant : Option ℚ) : ℚ :=
  match constant with
  | some z => if z = 0 then file else z
  | none => file

/-- `grid_z`, forcing.py:689-691, of one column with `N ≥ 1` layers and faces `w 0 … w N`: row `k` of
the result.  The last row is assigned after the first. -/
def romsLevel (N : ℕ) (w : ℕ → ℚ) (k : ℕ) : ℚ :=
  if k + 1 = N then w N else if k = 0 then w 0 else (1 / 2) * (w (k + 1) + w k)

/-- `_compute_roms_z_coord` for one column. -/
def romsZ (N : ℕ) (file : ℚ) (constant : Option ℚ) (hc h : ℚ) (s cs : ℕ → ℚ) (k : ℕ) : ℚ :=
  romsLevel N (fun i => romsFace (romsZeta file constant) hc h (s i) (cs i)) k

/-- The elevation used by `_create_interpolator`, forcing.py:708. -/
def romsConstant : ℚ := 1 / 10

/-! ### Source nodes that are used -/

/-- Row of `numpy.take(tri.simplices, simplex, axis=0)`, forcing.py:665-667, 814-816 and
interpolation.py:316-318: a point outside the triangulation has index -1, which takes the last
triangle. -/
def taken (simplices : List (List ℕ)) : Option ℕ → List ℕ
  | some i => (simplices[i]?).getD []
  | none => simplices.getLast?.getD []

/-- `nodes` of `_get_subset_nodes`, forcing.py:657-670, 806-819: the sorted vertices of the triangles
that contain the targets.  `located` is `find_simplex` of the targets. -/
def subsetNodes (simplices : List (List ℕ)) (located : List (Option ℕ)) : List ℕ :=
  (located.map (taken simplices)).flatten.dedup.insertionSort (· ≤ ·)

/-- `_get_subset_nodes` of interpolation.py:308-325: all nodes in the smallest range of rows and
columns around the nodes, in row-major order, as `lat_array[ind_lon, ind_lat].ravel()` lists them
(interpolation.py:401-402). `none` is the ValueError of `min` of an empty array. -/
def boxNodes (ncols : ℕ) (nodes : List ℕ) : Option (List ℕ) := do
  let r0 ← (nodes.map (· / ncols)).min?
  let r1 ← (nodes.map (· / ncols)).max?
  let c0 ← (nodes.map (· % ncols)).min?
  let c1 ← (nodes.map (· % ncols)).max?
  pure ((List.range' r0 (r1 + 1 - r0)).flatMap fun r =>
    (List.range' c0 (c1 + 1 - c0)).map fun c => r * ncols + c)

/-- Indexing by a boolean array. -/
def compress {α : Type} (mask : List Bool) (l : List α) : List α :=
  ((mask.zip l).filter (·.1)).map (·.2)

/-- `numpy.tile(x, (nz, 1)).ravel()`. -/
def tile {α : Type} (nz : ℕ) (l : List α) : List α := (List.replicate nz l).flatten

/-- `x.ravel()` of an array with `nz` rows and a column for each node. -/
def ravel {α : Type} (nz : ℕ) (nodes : List ℕ) (x : ℕ → ℕ → α) : List α :=
  (List.range nz).flatMap fun k => nodes.map (x k)

/-- Source points of the generic two-dimensional reader, forcing.py:842-858: latitude and longitude of
the subset, without the nodes on land. -/
def genericPoints (nodes : List ℕ) (valid : ℕ → Bool) (lat lon : ℕ → ℚ) : List (ℚ × ℚ) :=
  (compress (nodes.map valid) (nodes.map lat)).zip (compress (nodes.map valid) (nodes.map lon))

/-- Data given to the interpolator, forcing.py:882. -/
def genericData (nodes : List ℕ) (valid : ℕ → Bool) (var : ℕ → ℚ) : List ℚ :=
  compress (nodes.map valid) (nodes.map var)

/-- Source points of the ROMS reader, forcing.py:703-726.  `z k n` is the height of level `k` at node
`n`. -/
def romsPoints (nz : ℕ) (nodes : List ℕ) (wet : ℕ → Bool) (lat lon : ℕ → ℚ) (z : ℕ → ℕ → ℚ) :
    List (ℚ × ℚ × ℚ) :=
  let sub := compress (nodes.map wet) nodes
  (tile nz (compress (nodes.map wet) (nodes.map lat))).zip
    ((tile nz (compress (nodes.map wet) (nodes.map lon))).zip (ravel nz sub z))

/-- Data of the ROMS reader, forcing.py:749; the variable has `nv` levels. -/
def romsData (nv : ℕ) (nodes : List ℕ) (wet : ℕ → Bool) (var : ℕ → ℕ → ℚ) : List ℚ :=
  ravel nv (compress (nodes.map wet) nodes) var

/-- Source points of the NCOM reader, forcing.py:406-429: the surface is moved up to 1.5 m, and
only entries where the variable is defined are kept. -/
def ncomPoints (nz : ℕ) (nodes : List ℕ) (good : ℕ → ℕ → Bool) (lat lon : ℕ → ℚ) (zm : ℕ → ℕ → ℚ) :
    List (ℚ × ℚ × ℚ) :=
  let mask := ravel nz nodes good
  (compress mask (tile nz (nodes.map lat))).zip
    ((compress mask (tile nz (nodes.map lon))).zip
      (compress mask (ravel nz nodes fun k n => if k = 0 then 3 / 2 else zm k n)))

/-- Data of the NCOM reader, forcing.py:451; `good` is found from the first variable of the first file. -/
def ncomData (nz : ℕ) (nodes : List ℕ) (good : ℕ → ℕ → Bool) (var : ℕ → ℕ → ℚ) : List ℚ :=
  compress (ravel nz nodes good) (ravel nz nodes var)

/-! ### Nodes used by the NCOM reader, forcing.py:294-356 -/

/-- `buffer`, forcing.py:321. -/
def ncomBuffer : ℚ := 1 / 5

/-- Bounding box of the targets with the buffer, forcing.py:322-325; `none` is the ValueError for no
targets. -/
def ncomBox (targets : List (ℚ × ℚ)) : Option ((ℚ × ℚ) × (ℚ × ℚ)) := do
  let a ← (targets.map (·.1)).min?
  let b ← (targets.map (·.1)).max?
  let c ← (targets.map (·.2)).min?
  let d ← (targets.map (·.2)).max?
  pure ((a - ncomBuffer, b + ncomBuffer), (c - ncomBuffer, d + ncomBuffer))

/-- `_create_2d_mapping`, forcing.py:315-353, on a grid with `total` nodes.  `query` are the results of
the search for the nearest node with data, as indices into the list of nodes with data
(forcing.py:334-338); line 339 turns them into indices of the grid.  `none` is an exception (no
target, no data, or no node chosen). -/
def ncomNodes (total : ℕ) (good : ℕ → Bool) (lat lon : ℕ → ℚ) (targets : List (ℚ × ℚ))
    (query : List ℕ) : Option (List ℕ) := do
  let box ← ncomBox targets
  let goodNodes := (List.range total).filter good
  let nn ← query.mapM (goodNodes[·]?)
  let nodes := (List.range total).filter fun n =>
    (decide (box.1.1 ≤ lat n) && decide (lat n ≤ box.1.2) && decide (box.2.1 ≤ lon n)
      && decide (lon n ≤ box.2.2) && good n) || decide (n ∈ nn)
  if nodes = [] then none else pure nodes

/-! ### Nearest source point -/

/-- Squared distance in degrees. -/
def dist2 (p q : ℚ × ℚ) : ℚ := (p.1 - q.1) ^ 2 + (p.2 - q.2) ^ 2

/-- Meaning of `cKDTree(points).query(x)`: index of one of the nearest points. -/
def IsNearest (points : List (ℚ × ℚ)) (x : ℚ × ℚ) (i : ℕ) : Prop :=
  ∃ p, points[i]? = some p ∧ ∀ q ∈ points, dist2 p x ≤ dist2 q x

/-! ### Latitude-longitude files, interpolation.py:424-477 -/

/-- A coordinate variable: one or two dimensions. -/
inductive Coord
  | vec (x : List ℚ)
  | mat (x : List (List ℚ))
  deriving DecidableEq

/-- `len(x.shape) == 1`. -/
def Coord.is1d : Coord → Bool
  | .vec _ => true
  | .mat _ => false

/-- `numpy.ravel`, which `meshgrid` applies to its arguments. -/
def Coord.flat : Coord → List ℚ
  | .vec x => x
  | .mat x => x.flatten

/-- Latitude and longitude arrays of `NetCDFLatLonInterpolator2d.interpolate`,
interpolation.py:461-468, with the assertions of `_create_interpolator`, interpolation.py:392-393;
`lon_is_1d` is computed from `grid_lat` (line 464). -/
def latLonArrays (lat lon : Coord) : Except String (List (List ℚ) × List (List ℚ)) :=
  let latIs1d := lat.is1d
  let lonIs1d := lat.is1d
  if latIs1d ≠ lonIs1d then .error "Unsupported lat lon grid"
  else if latIs1d && lonIs1d then
    .ok (lat.flat.map fun y => lon.flat.map fun _ => y, lat.flat.map fun _ => lon.flat)
  else
    match lat, lon with
    | .mat y, .mat x => .ok (y, x)
    | .vec _, _ => .error "Latitude must be two dimensional array."
    | .mat _, .vec _ => .error "longitude must be two dimensional array."

/-! ### Assignment of variables to fields -/

/-- `GenericInterpolator2D.__init__`, forcing.py:905-920: the list of variables read.  The reader keeps
the list object `self.field_names`, and line 917 extends that same object. -/
def genericRead (fieldNames : List String) (components : Option (List String)) : List String :=
  match components with
  | none => fieldNames
  | some c => fieldNames ++ c

/-- `set_fields`, forcing.py:929-948, for a vector field with two components: the values written to
the fields, in order, and to the vector field.  `read` is the value of a variable at the current time
(one value stands for the whole array).  `none` is an exception. -/
def genericSet {α : Type} (fieldNames : List String) (components : Option (List String))
    (rot : α → α → α × α) (read : String → α) : Option (List α × Option (α × α)) := do
  let vals := (genericRead fieldNames components).map read
  let vec ← match components with
    | none => pure none
    | some c =>
      match c.map fun n => (genericRead fieldNames components).idxOf n with
      | [i, j] => do
        let a ← vals[i]?
        let b ← vals[j]?
        pure (some (rot a b))
      | _ => none
  let scalars ← (List.range fieldNames.length).mapM (vals[·]?)
  pure (scalars, vec)

/-- `NCOMInterpolator`, forcing.py:579-624: values of the fields, by name, after `set_fields`;
`none` where no field is written. `u`, `v` are rotated when both are among the names. -/
def ncomSet {α : Type} (names : List String) (rot : α → α → α × α) (read : String → α)
    (name : String) : Option α :=
  let rotate := decide ("U_Velocity" ∈ names) && decide ("V_Velocity" ∈ names)
  let uv := rot (read "U_Velocity") (read "V_Velocity")
  let scalars := if rotate then (names.erase "U_Velocity").erase "V_Velocity" else names
  if name ∈ scalars then some (read name)
  else if rotate && (name == "U_Velocity") then some uv.1
  else if rotate && (name == "V_Velocity") then some uv.2
  else none

/-- `gi`, forcing.py:589: the surface elevation is read on the two-dimensional grid. -/
def ncomIs2d (fnstr : String) : Bool := fnstr == "ssh"

/-! ### Time stamps of atmospheric forecasts, forcing.py:218-242 -/

/-- `ATMNetCDFTime.__init__`: the time stamps that are kept.  `none` is an exception: an empty file, a
single time stamp with `max_duration` (the mean of no differences is NaN) or no time stamp left. A zero
mean step with `max_duration` is left out (`inf` cannot be converted). -/
def atmTimes (times : List ℚ) (maxDuration : Option ℚ) : Option (List ℚ) :=
  match maxDuration with
  | none => if times = [] then none else some times
  | some d =>
    match times.head?, times.getLast? with
    | some a, some b =>
      let step := (b - a) / ((times.length : ℚ) - 1)
      if times.length ≤ 1 ∨ step = 0 then none else
        let n : ℤ := if 0 ≤ d / step then ⌊d / step⌋ else ⌈d / step⌉
        let kept := if 0 ≤ n then times.take n.toNat else times.take (times.length - (-n).toNat)
        if kept = [] then none else some kept
    | _, _ => none

end Verif.Source
