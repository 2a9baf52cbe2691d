import Mathlib.Data.Real.Basic
import Mathlib.Algebra.BigOperators.Fin
import Mathlib.Algebra.Order.BigOperators.Group.Finset

/-!
Model of `thetis/limiter.py: VertexBasedP1DGLimiter`.  The base class `VertexBasedLimiter` is part of
firedrake and not in the repository; its three steps (initialise the bounds with ∓1e300, take the
extremes of the neighbouring centroids, scale the deviation from the centroid) are modelled from its
published code and belong to the trusted base.  Floats are real numbers.
-/

namespace Verif.Limiter

open Finset Classical

set_option linter.unusedSectionVars false

/-- A mesh with cells `C`, mesh vertices `V` and local nodes `ι` of a cell.  `mass c i` is the integral
of the local basis function `i` over the cell for the current coordinates.  `facets` lists the
boundary facets (lateral ones, and for extruded meshes bottom and top) with the local nodes of the
closure, limiter.py:115-120 and 149-150. -/
structure Mesh (C V ι : Type) where
  cells : List C
  vert : C → ι → V
  mass : C → ι → ℝ
  facets : List (C × List ι)

variable {C V ι : Type} [Fintype ι]

/-- Cell volume: the P0 mass matrix `a_form`, limiter.py:82-84 (basis functions sum to one). -/
def Mesh.volume (m : Mesh C V ι) (c : C) : ℝ := ∑ i, m.mass c i

/-- `_update_centroids`, limiter.py:90-97: the right hand side is assembled on the current mesh `m`,
the matrix on the mesh `a` it was last assembled on. -/
noncomputable def centroid (m a : Mesh C V ι) (q : C → ι → ℝ) (c : C) : ℝ :=
  (∑ i, m.mass c i * q c i) / a.volume c

/-- The mesh of the matrix, limiter.py:95-96: the current one if `time_dependent_mesh`, else the one
of the construction. -/
def matrixMesh (timeDependent : Bool) (m0 m : Mesh C V ι) : Mesh C V ι :=
  if timeDependent then m else m0

/-- One pass of `_min_max_loop` for the maximum (firedrake `VertexBasedLimiter.compute_bounds`). -/
noncomputable def cellMax (m : Mesh C V ι) (cbar : C → ℝ) (f : V → ℝ) (c : C) : V → ℝ :=
  fun v => if ∃ i, m.vert c i = v then max (f v) (cbar c) else f v
/-- The same for the minimum. -/
noncomputable def cellMin (m : Mesh C V ι) (cbar : C → ℝ) (f : V → ℝ) (c : C) : V → ℝ :=
  fun v => if ∃ i, m.vert c i = v then min (f v) (cbar c) else f v

/-- `face_mean`, limiter.py:126-131 and 155-159: arithmetic mean of the nodal values. -/
noncomputable def faceMean (q : C → ι → ℝ) (f : C × List ι) : ℝ :=
  (f.2.map (q f.1)).sum / f.2.length

/-- The kernel on one boundary facet for the maximum, limiter.py:132-136 and 160-163. -/
noncomputable def faceMax (m : Mesh C V ι) (q : C → ι → ℝ) (g : V → ℝ) (f : C × List ι) : V → ℝ :=
  fun v => if ∃ i ∈ f.2, m.vert f.1 i = v then max (g v) (faceMean q f) else g v
/-- The same for the minimum. -/
noncomputable def faceMin (m : Mesh C V ι) (q : C → ι → ℝ) (g : V → ℝ) (f : C × List ι) : V → ℝ :=
  fun v => if ∃ i ∈ f.2, m.vert f.1 i = v then min (g v) (faceMean q f) else g v

/-- `max_field` after `compute_bounds`, limiter.py:100-179. -/
noncomputable def maxField (m : Mesh C V ι) (cbar : C → ℝ) (q : C → ι → ℝ) : V → ℝ :=
  m.facets.foldl (faceMax m q) (m.cells.foldl (cellMax m cbar) fun _ => -1e300)
/-- `min_field` after `compute_bounds`. -/
noncomputable def minField (m : Mesh C V ι) (cbar : C → ℝ) (q : C → ι → ℝ) : V → ℝ :=
  m.facets.foldl (faceMin m q) (m.cells.foldl (cellMin m cbar) fun _ => 1e300)

/-- One iteration of the first loop of `_limit_kernel` (firedrake). -/
noncomputable def alphaStep (qavg qi hi lo alpha : ℝ) : ℝ :=
  if qi > qavg then min alpha (min 1 ((hi - qavg) / (qi - qavg)))
  else if qi < qavg then min alpha (min 1 ((qavg - lo) / (qavg - qi)))
  else alpha

/-- `alpha` of a cell with nodes in the order `l`. -/
noncomputable def alphaOf (qavg : ℝ) (qi hi lo : ι → ℝ) (l : List ι) : ℝ :=
  l.foldl (fun a i => alphaStep qavg (qi i) (hi i) (lo i) a) 1

/-- `apply` on a scalar field, limiter.py:197-198: `compute_bounds`, then the second loop of the limit
kernel on every cell.  `order` is the node order of a cell. -/
noncomputable def apply (timeDependent : Bool) (m0 m : Mesh C V ι) (order : List ι)
    (q : C → ι → ℝ) : C → ι → ℝ :=
  let cbar := centroid m (matrixMesh timeDependent m0 m) q
  let hi := maxField m cbar q
  let lo := minField m cbar q
  fun c i => cbar c + alphaOf (cbar c) (q c) (fun j => hi (m.vert c j)) (fun j => lo (m.vert c j)) order
    * (q c i - cbar c)

/-- `apply` on a vector field, limiter.py:189-196: component by component through a work function. -/
noncomputable def applyVector {d : ℕ} (timeDependent : Bool) (m0 m : Mesh C V ι) (order : List ι)
    (q : C → ι → Fin d → ℝ) : C → ι → Fin d → ℝ :=
  (List.finRange d).foldl (fun q k =>
    let tmp := apply timeDependent m0 m order fun c i => q c i k
    fun c i k' => if k' = k then tmp c i else q c i k') q

end Verif.Limiter
