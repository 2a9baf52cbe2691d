import Mathlib.Algebra.Order.Field.Basic
import Mathlib.Algebra.Order.Field.Rat
import Mathlib.Data.Rat.Defs
import Mathlib.Order.Lattice
import Mathlib.Order.Defs.LinearOrder
import Mathlib.Data.List.Range

/-!
Model of the element kernels that copy fields between the 2D and the 3D mesh
(`ExpandFunctionTo3d`, `SubFunctionExtractor` of `thetis/utility3d.py`, `get_facet_mask` of
`thetis/utility.py`) and of `Mesh3DConsistencyCalculator`.

Memory is modelled: an array maps an address to its contents, `none` standing for an address outside
the array or a location that has not been written.  Simplifications: exact arithmetic; one process;
the rescaling of HDiv spaces by the element height (utility3d.py:536-546, 559-560, 685-695, 707-708) is left out.
-/

namespace Verif.Layers

/-- Contents of memory: undefined (`none`) or a number. -/
abbrev Mem := ℕ → Option ℚ

/-- A field: values of the nodes by component. -/
abbrev Dat := ℕ → ℕ → Option ℚ

/-- The assignments of a list, first to last. -/
def store (m : Mem) (ws : List (ℕ × Option ℚ)) : Mem :=
  ws.foldl (fun m w => Function.update m w.1 w.2) m

/-- `get_facet_mask`, utility.py:344-346: `arange(nb_nodes_h)*nb_nodes_v + offset` with offset 0 at the
bottom, 1 at the top. -/
def facetMask (nv : ℕ) (top : Bool) (d : ℕ) : ℕ := d * nv + (if top then 1 else 0)

/-- Kernel of `ExpandFunctionTo3d`, utility3d.py:521-530; `nodes` 2D nodes of an element, `dim2`, `dim3`
components, `v` nodes in the vertical, `idx` the facet mask of line 519. -/
def expandKernel (nodes dim2 dim3 v : ℕ) (idx : ℕ → ℕ) (func func2d : Mem) : Mem :=
  store func <| (List.range nodes).flatMap fun d => (List.range dim2).flatMap fun c =>
    (List.range v).map fun e => (dim3 * (idx d + e) + c, func2d (dim2 * d + c))

/-- Kernel of `SubFunctionExtractor` for a facet, utility3d.py:673-680. -/
def extractKernel (nodes dim2 dim3 : ℕ) (idx : ℕ → ℕ) (func func3d : Mem) : Mem :=
  store func <| (List.range nodes).flatMap fun d => (List.range dim2).map fun c =>
    (dim2 * d + c, func3d (dim3 * idx d + c))

/-- `0.5*(a + b)`, undefined if one of the operands is. -/
def mean2 (a b : Option ℚ) : Option ℚ := a.bind fun x => b.map fun y => 1 / 2 * (x + y)

/-- Kernel of `SubFunctionExtractor` for the average, utility3d.py:659-668; `idx[d + nnodes]` is the
second half of the index array of lines 640-641. -/
def averageKernel (nodes dim2 dim3 : ℕ) (bot top : ℕ → ℕ) (func func3d : Mem) : Mem :=
  store func <| (List.range nodes).flatMap fun d => (List.range dim2).map fun c =>
    (dim2 * d + c, mean2 (func3d (dim3 * bot d + c)) (func3d (dim3 * top d + c)))

/-! ### Loops over the mesh -/

/-- Extruded mesh with a 2D and a 3D space: nodes of a 2D element, nodes in the vertical of a 3D
element, columns, layers, the node maps (`cell_node_map()`). The extruded dimension is the inner one of
the local numbering (utility.py:342-343). -/
structure Mesh where
  n : ℕ
  v : ℕ
  cols : ℕ
  layers : ℕ
  map2 : ℕ → ℕ → ℕ
  map3 : ℕ → ℕ → ℕ → ℕ

/-- Packing of an argument of `op2.par_loop`: the values of the `arity` nodes of a cell. -/
def gather (arity dim : ℕ) (map : ℕ → ℕ) (f : Dat) : Mem :=
  fun j => if j < arity * dim then f (map (j / dim)) (j % dim) else none

/-- Unpacking of an argument with access `WRITE`: all entries of the local array are written back. -/
def scatter (arity dim : ℕ) (map : ℕ → ℕ) (loc : Mem) (f : Dat) : Dat :=
  (List.range (arity * dim)).foldl
    (fun f j => Function.update f (map (j / dim)) (Function.update (f (map (j / dim))) (j % dim) (loc j)))
    f

/-- Contents of the local array of an argument with access `WRITE` before the kernel. -/
def fresh : Mem := fun _ => none

/-- `ExpandFunctionTo3d.solve`, utility3d.py:549-557 (`op2.ALL`), cells taken in the order `cells`. -/
def expand (m : Mesh) (dim2 dim3 : ℕ) (cells : List (ℕ × ℕ)) (f : Dat) (out : Dat) : Dat :=
  cells.foldl (fun out kl =>
    scatter (m.n * m.v) dim3 (m.map3 kl.1 kl.2)
      (expandKernel m.n dim2 dim3 m.v (facetMask m.v false) fresh (gather m.n dim2 (m.map2 kl.1) f))
      out) out

/-- What is extracted, utility3d.py:611-613: `'bottom'`, `'top'`, `'average'`. -/
inductive Facet
  | bottom | top | average
  deriving DecidableEq

/-- The element visited in a column, utility3d.py:644-647 (`ON_TOP`, `ON_BOTTOM`). -/
def layerOf (m : Mesh) (top : Bool) : ℕ := if top then m.layers - 1 else 0

/-- Choice of the kernel, utility3d.py:639-643, 657-683. -/
def kernelOf (m : Mesh) (dim2 dim3 : ℕ) : Facet → Mem → Mem
  | .bottom => extractKernel m.n dim2 dim3 (facetMask m.v false) fresh
  | .top => extractKernel m.n dim2 dim3 (facetMask m.v true) fresh
  | .average => averageKernel m.n dim2 dim3 (facetMask m.v false) (facetMask m.v true) fresh

/-- `elem_facet` given or the boundary, utility3d.py:623-625. -/
def facetOf (top : Bool) (elemFacet : Option Facet) : Facet :=
  elemFacet.getD (if top then .top else .bottom)

/-- `SubFunctionExtractor.solve`, utility3d.py:698-705, columns taken in the order `cells`. -/
def extract (m : Mesh) (dim2 dim3 : ℕ) (cells : List ℕ) (top : Bool) (elemFacet : Option Facet)
    (g : Dat) (out : Dat) : Dat :=
  cells.foldl (fun out k =>
    scatter m.n dim2 (m.map2 k)
      (kernelOf m dim2 dim3 (facetOf top elemFacet)
        (gather (m.n * m.v) dim3 (m.map3 k (layerOf m top)) g))
      out) out

/-- Node maps of discontinuous spaces: every element has nodes of its own. -/
def dgMesh (n v cols layers : ℕ) : Mesh where
  n := n
  v := v
  cols := cols
  layers := layers
  map2 k d := k * n + d
  map3 k l i := (k * layers + l) * (n * v) + i

/-- Node maps of continuous spaces: the nodes above a 2D node are numbered upwards; the end points of
the vertical element come first in the local numbering (utility.py:343). -/
def cgMesh (n v cols layers : ℕ) (map2 : ℕ → ℕ → ℕ) : Mesh where
  n := n
  v := v
  cols := cols
  layers := layers
  map2 := map2
  map3 k l i := map2 k (i / v) * ((v - 1) * layers + 1) + l * (v - 1)
    + (if i % v = 0 then 0 else if i % v = 1 then v - 1 else i % v - 1)

/-! ### Mesh consistency -/

/-- `z_top_max`, … of utility3d.py:428-441: `fmax` from `-1e20`. -/
def foldMax (n : ℕ) (z : ℕ → ℚ) : ℚ := (List.range n).foldl (fun a d => max (z d) a) (-10 ^ 20)

/-- `z_top_min`, … of utility3d.py:428-441: `fmin` from `1e20`. -/
def foldMin (n : ℕ) (z : ℕ → ℚ) : ℚ := (List.range n).foldl (fun a d => min (z d) a) (10 ^ 20)

/-- Metric at the top node `d`, utility3d.py:442-449; `zb`, `zt` heights of the nodes of the bottom and
the top facet. -/
def hccTop (n : ℕ) (zb zt : ℕ → ℚ) (d : ℕ) : ℚ := (foldMax n zt - foldMin n zt) / (zt d - zb d)

/-- Metric at the bottom node `d`, utility3d.py:443-450. -/
def hccBot (n : ℕ) (zb zt : ℕ → ℚ) (d : ℕ) : ℚ := (foldMax n zb - foldMin n zb) / (zt d - zb d)

end Verif.Layers
