import Mathlib.Analysis.SpecialFunctions.Sqrt

/-!
Model of `DepthExpression` (`thetis/utility.py`), `set_wetting_and_drying_alpha`
(`thetis/solver2d.py`), `compute_wind_stress`, `AtmosphericForcingInterpolator.set_fields` and
`TidalBoundaryForcing.set_tidal_field` (`thetis/forcing.py`).  Fields are modelled by their values at
one node, except for the tidal forcing where the loop over nodes matters.
-/

namespace Verif.Forcing

/-! ### Water depth, utility.py:936-996 -/

/-- Options of `DepthExpression` and the bathymetry at a point (utility.py:968-973). -/
structure Depth where
  bathymetry : ℝ
  nonlinear : Bool
  wetdry : Bool
  alpha : ℝ

/-- `wd_bathymetry_displacement`, utility.py:975-985. -/
noncomputable def Depth.displacement (d : Depth) (eta : ℝ) : ℝ :=
  if d.wetdry then
    let h := d.bathymetry + eta
    0.5 * (Real.sqrt (h ^ 2 + d.alpha ^ 2) - h)
  else 0

/-- `get_total_depth`, utility.py:987-996. -/
noncomputable def Depth.total (d : Depth) (eta : ℝ) : ℝ :=
  if d.nonlinear then d.bathymetry + eta + d.displacement eta else d.bathymetry

/-- Automatic wetting-drying parameter at a node, solver2d.py:274-287: `w` is the cell width vector,
`g` the bathymetry gradient (dimension 2).  The interpolation to P1 is nodal. -/
noncomputable def autoAlpha (w g : ℝ × ℝ) (amin amax : Option ℝ) : ℝ :=
  let a := w.1 * |g.1| + w.2 * |g.2|
  let a := match amax with
    | some m => min m a
    | none => a
  match amin with
  | some m => max m a
  | none => a

/-! ### Wind stress, forcing.py:19-79 -/

/-- Supported formulas; `other` is any other string. -/
inductive WindMethod
  | largePond1981
  | smithBanke1975
  | largeYeager2009
  | other
deriving DecidableEq, Repr

/-- Air density, physical_constants.py:10. -/
noncomputable def rhoAir : ℝ := 1.22

/-- Drag coefficient as a function of the wind speed, forcing.py:61-75; `none` where the Python
variable `C_D` stays undefined and the next line raises `UnboundLocalError`. -/
noncomputable def dragCoefficient (m : WindMethod) (wmag : ℝ) : Option ℝ :=
  match m with
  | .largePond1981 => some (if wmag > 11 then 1.0e-3 * (0.49 + 0.065 * wmag) else 1.2e-3)
  | .smithBanke1975 => some ((0.63 + 0.066 * wmag) / 1000)
  | .largeYeager2009 => some (if wmag > 33 then 2.34e-3 else
      1.0e-3 * (2.7 / (wmag + 1e-3) + 0.142 + wmag / 13.09 - 3.14807e-10 * wmag ^ 6))
  | .other => none

/-- `compute_wind_stress` at one node, forcing.py:59-79. -/
noncomputable def windStress (m : WindMethod) (u v : ℝ) : Option (ℝ × ℝ) :=
  let wmag := Real.sqrt (u ^ 2 + v ^ 2)
  (dragCoefficient m wmag).map (fun cd =>
    let tau := cd * rhoAir * wmag
    (tau * u, tau * v))

/-! ### Tidal boundary forcing, forcing.py:1051-1083 -/

/-- Result of a database lookup at a node (`CoordinateError` is `none`). -/
abbrev Lookup (N K : Type) := N → Option K

/-- The loop over the elevation nodes, forcing.py:1065-1072. -/
def setElev {N K : Type} [DecidableEq N] [Zero K] (elevDb : Lookup N K) :
    List N → (N → K) → (N → K)
  | [], e => e
  | n :: ns, e => setElev elevDb ns (fun x => if x = n then (elevDb n).getD 0 else e x)

/-- The velocity part of the loop, forcing.py:1073-1079: arrays `lon_vel`, `lat_vel`.  An error in the
second lookup leaves `lon_vel` assigned; the assignments to `uv_data` in the handler are overwritten
after the loop (forcing.py:1080-1083) and therefore not modelled. -/
def setVel {N K : Type} [DecidableEq N] (uDb vDb : Lookup N K) :
    List N → (N → K) × (N → K) → (N → K) × (N → K)
  | [], w => w
  | n :: ns, (lon, lat) =>
    match uDb n with
    | none => setVel uDb vDb ns (lon, lat)
    | some u =>
      let lon' := fun x => if x = n then u else lon x
      match vDb n with
      | none => setVel uDb vDb ns (lon', lat)
      | some v => setVel uDb vDb ns (lon', fun x => if x = n then v else lat x)

/-- `set_tidal_field`, forcing.py:1051-1083.  `rot` is the vector rotator, applied node by node;
`uv = none` when velocity is not computed.  With an empty node set nothing is touched (1056-1057). -/
def setTidal {N K : Type} [DecidableEq N] [Zero K] (nodes : List N) (elevDb uDb vDb : Lookup N K)
    (rot : N → K → K → K × K) (elev : N → K) (uv : Option (N → K × K)) :
    (N → K) × Option (N → K × K) :=
  if nodes = [] then (elev, uv)
  else
    let e := setElev elevDb nodes elev
    match uv with
    | none => (e, none)
    | some _ =>
      let w := setVel uDb vDb nodes (fun _ => 0, fun _ => 0)
      (e, some (fun n => rot n (w.1 n) (w.2 n)))

/-! ### Atmospheric forcing, forcing.py:147-169 -/

/-- `set_fields` at one node after interpolation: rotated stress and pressure in Pa.  `other` units
leave the pressure field unchanged (forcing.py:155-169). -/
inductive PressureUnits | pa | hpa | other
deriving DecidableEq, Repr

noncomputable def setPressure (u : PressureUnits) (old prmsl : ℝ) : ℝ :=
  match u with
  | .pa => prmsl
  | .hpa => prmsl * 100
  | .other => old

noncomputable def setStress (rot : ℝ → ℝ → ℝ × ℝ) (east north : ℝ) : Option (ℝ × ℝ) :=
  (windStress .largeYeager2009 east north).map (fun s => rot s.1 s.2)

end Verif.Forcing
