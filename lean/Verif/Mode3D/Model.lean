import Mathlib.Algebra.Order.Field.Basic
import Mathlib.Algebra.BigOperators.Group.List.Basic
import Mathlib.Data.Rat.Defs
import Mathlib.Algebra.Order.Field.Rat

/-!
Model of one water column of the 3D solver: mode splitting (`thetis/coupled_timeintegrator.py`,
`VerticalIntegrator` of `thetis/utility3d.py`) and the moving mesh (`ALEMeshUpdater`).

Simplifications: one velocity component, exact arithmetic, elements linear and discontinuous in the vertical
(the default `dg-dg` spaces); horizontal coupling through projections of the elevation is left
out, all fields are those of one column.
-/

namespace Verif.Mode3D

/-- One element of the column: thickness, value at its bottom and its top node. -/
structure Elem where
  h : ℚ
  a : ℚ
  b : ℚ
  deriving DecidableEq

/-- Integral of a field over the column. -/
def integral (col : List Elem) : ℚ := (col.map fun e => e.h * (e.a + e.b) / 2).sum

/-- Thickness of the column. -/
def thickness (col : List Elem) : ℚ := (col.map Elem.h).sum

/-- `VerticalIntegrator` with `average=True`, utility3d.py:197-203: the integral from the bottom of
the field divided by `elevation + bathymetry`, read at the surface (`extract_surf_dav_uv`). -/
def average (elev bath : ℚ) (col : List Elem) : ℚ := integral (col.map fun e =>
  { e with a := e.a / (elev + bath), b := e.b / (elev + bath) })

/-- Adds a constant to a field (`copy_uv_dav_to_uv_dav_3d` and `uv_3d += …`). -/
def shift (v : ℚ) (col : List Elem) : List Elem :=
  col.map fun e => { e with a := e.a + v, b := e.b + v }

/-- Velocity fields of the solver: the stored deviation `uv_3d`, `uv_dav_3d`, `uv_2d`,
`split_residual_2d`. -/
structure Vel where
  dev : List Elem
  dav : ℚ
  uv2d : ℚ
  split : ℚ

/-- `_remove_depth_average_from_uv_3d`, coupled_timeintegrator.py:50-58. -/
def removeAverage (elev bath : ℚ) (s : Vel) : Vel :=
  let m := average elev bath s.dev
  { s with dav := m, dev := shift (-m) s.dev }

/-- `_update_2d_coupling`, coupled_timeintegrator.py:43-48, 50-70. -/
def update2dCoupling (elev bath dt : ℚ) (s : Vel) : Vel :=
  let s := removeAverage elev bath s
  let s := { s with split := s.dav / dt }
  { s with dav := s.uv2d }

/-- The field given to exporters and to the implicit vertical solver: total velocity,
solver.py:996 and coupled_timeintegrator.py:550-552, 697-699. -/
def Vel.total (s : Vel) : List Elem := shift s.dav s.dev

/-- `uv_3d += uv_dav_3d; … ; uv_3d -= uv_dav_3d` around an operation `f` on `uv_3d`
(solver.py:995-1004 with `f` doing nothing to the field). -/
def withTotal (f : List Elem → List Elem) (s : Vel) : Vel :=
  { s with dev := shift (-s.dav) (f (shift s.dav s.dev)) }

/-! ### Moving mesh -/

/-- `kernel_z_coord`, utility3d.py:763-780. -/
def newZ (bath eta zref : ℚ) : ℚ := eta * (zref + bath) / bath + zref

/-- `kernel_w_mesh`, utility3d.py:782-799. -/
def newW (bath wsurf zref : ℚ) : ℚ := wsurf * (zref + bath) / bath

/-- Default surface mesh velocity, utility3d.py:831-838: `(elev_new - elev_old)/dt/c`. -/
def wSurf (dt c old new : ℚ) : ℚ := (old + -new) * (-1 / dt / c)

/-- Surface mesh velocity of the two-stage scheme, coupled_timeintegrator.py:599-618; `e0`, `e1` are
the elevations stored at the start of the stages. -/
def wSurfRK (dt : ℚ) (stage : ℕ) (e0 e1 cur : ℚ) : ℚ :=
  if stage = 0 then (cur - e0) / dt else (2 * cur - e1 - e0) / dt

/-- Thickness of the elements between consecutive nodes (`compute_elem_height`,
utility.py:583-617). -/
def heights : List ℚ → List ℚ
  | [] => []
  | [_] => []
  | z :: z' :: zs => (z' - z) :: heights (z' :: zs)

end Verif.Mode3D
