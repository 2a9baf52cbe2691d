import Verif.Ext.Model

/-!
Model of the weak forms of thetis/tracer_eq.py on extruded meshes, in the setting of `Verif.Ext`.  A residual is the
number that the form takes for one test function.
-/

namespace Verif.Tracer3

open Verif.Dg Verif.Ext

variable {e : Mesh3}

/-- The entry of `bnd_conditions` for one boundary id: which keys it has, and their values; tracer_eq.py:93-113. -/
structure BFuncs (e : Mesh3) where
  elev : Option (e.m.B → ℝ) := none
  value : Option (e.m.B → ℝ) := none
  uv : Option (e.m.B → Fin 3 → ℝ) := none
  flux : Option (e.m.B → ℝ) := none
  un : Option (e.m.B → ℝ) := none

/-- Members of `TracerTerm`, tracer_eq.py:55-65.  `hdg`, `vdg` are `horizontal_dg` and `vertical_dg`, `symm` is
`use_symmetric_surf_bnd`, `lf` is `use_lax_friedrichs`, `p`, `q` the polynomial
degrees, `z` the value of `sign(0)`.  `sipg_factor` is a Constant. -/
structure Term (e : Mesh3) where
  hdg : Bool
  vdg : Bool
  symm : Bool
  lf : Bool
  sipg : ℝ
  sipgV : Sc e.m
  p : ℕ
  q : ℕ
  triangle : Bool
  z : ℝ

/-- The entries of `fields_old` used by the terms.  `w` is the third component of the vertical velocity. -/
structure Fields (e : Mesh3) where
  uv : Option (Vc e.m)
  uvDav : Option (Vc e.m)
  elev : Sc e.m
  w : Option (Sc e.m)
  wMesh : Option (Sc e.m)
  lfFactor : ℝ
  diffH : Option (Sc e.m)
  diffV : Option (Sc e.m)
  source : Option (Sc e.m)

/-- `get_bnd_functions`, tracer_eq.py:77-115, at a boundary point; returns the external value and velocity (the
external elevation is not used by the terms).  `none` where it raises: `boundary_len` is a dictionary
(utility.py:827-832), so line 108 multiplies an expression by a dictionary. -/
def bndFunctions (f : BFuncs e) (b : e.m.B) (cIn : ℝ) (uvIn : Fin 3 → ℝ) : Option (ℝ × (Fin 3 → ℝ)) :=
  let cExt := match f.value with
    | some v => v b
    | none => cIn
  match f.uv with
  | some u => some (cExt, u b)
  | none => match f.flux with
    | some _ => none
    | none => match f.un with
      | some u => some (cExt, fun i => u b * e.m.nb b i)
      | none => some (cExt, uvIn)

/-- `bndFunctions` with the interior values where it raises; no form exists then. -/
def bndF (f : BFuncs e) (b : e.m.B) (cIn : ℝ) (uvIn : Fin 3 → ℝ) : ℝ × (Fin 3 → ℝ) :=
  (bndFunctions f b cIn uvIn).getD (cIn, uvIn)

/-- `uv_3d` plus `uv_depth_av`, tracer_eq.py:143-146. -/
def totalUv (F : Fields e) (uv : Vc e.m) : Vc e.m :=
  match F.uvDav with
  | some d => fun i => uv i + d i
  | none => uv

/-- `un_av` on an interior facet, tracer_eq.py:155-157. -/
noncomputable def unAv (uv : Vc e.m) (s : e.m.S) : ℝ :=
  avg (uv 0) s * e.m.nm s 0 + avg (uv 1) s * e.m.nm s 1

/-- The upwind switch, tracer_eq.py:158, 184 and 227. -/
noncomputable def upwind (T : Term e) (un : ℝ) : ℝ := (1 / 2) * (sgn T.z un + 1)

/-- The upwind value, tracer_eq.py:159 and 228. -/
noncomputable def cUp (T : Term e) (c : Sc e.m) (un : ℝ) (s : e.m.S) : ℝ :=
  (c (.minus s)).v * upwind T un + (c (.plus s)).v * (1 - upwind T un)

/-- The flux through an open side, tracer_eq.py:176-185. -/
noncomputable def sideFlux (T : Term e) (uv : Vc e.m) (f : BFuncs e) (c : Sc e.m) (b : e.m.B) : ℝ :=
  let n := e.m.nb b
  let cIn := (c (.bnd b)).v
  let r := bndF f b cIn fun i => (uv i (.bnd b)).v
  let uvAv : Fin 3 → ℝ := fun i => (1 / 2) * ((uv i (.bnd b)).v + r.2 i)
  let un := n 0 * uvAv 0 + n 1 * uvAv 1
  let s := upwind T un
  cIn * normalH uv b + (1 - s) * (r.1 - cIn) * un

/-- The integrand on a side, zero where the boundary has no entry; tracer_eq.py:170-187. -/
noncomputable def sideTerm (T : Term e) (uv : Vc e.m) (f : Option (BFuncs e)) (c test : Sc e.m) (b : e.m.B) : ℝ :=
  match f with
  | none => 0
  | some funcs => sideFlux T uv funcs c b * (test (.bnd b)).v

/-- `HorizontalAdvectionTerm.residual`, tracer_eq.py:139-189. -/
noncomputable def hAdvection (T : Term e) (F : Fields e) (bc : ℕ → Option (BFuncs e)) (c test : Sc e.m) : ℝ :=
  match F.uv with
  | none => 0
  | some uv3 =>
    let uv := totalUv F uv3
    let f := e.m.dx fun x => -((c (.cell x)).v * ∑ i, (uv i (.cell x)).v * (test (.cell x)).g i)
    let f := f + if T.hdg then
        e.dSv (fun s => cUp T c (unAv uv s) s * facetDiv uv test s) +
        e.dSh (fun s => cUp T c (unAv uv s) s * facetDiv uv test s) +
        (if T.lf then
          e.dSv (fun s => (1 / 2) * |unAv uv s| * F.lfFactor * (jump test s * jump c s)) +
          e.dSh (fun s => (1 / 2) * |unAv uv s| * F.lfFactor * (jump test s * jump c s))
        else 0) +
        e.sideLoop fun k b => sideTerm T uv (bc k) c test b
      else 0
    let f := f + if T.symm then
        e.dsurf fun b => (c (.bnd b)).v * normalH uv b * (test (.bnd b)).v
      else 0
    Neg.neg f

/-- `w[2] - w_mesh`, tracer_eq.py:220-222. -/
def vertVelo (F : Fields e) (w : Sc e.m) : Sc e.m :=
  match F.wMesh with
  | some m => w - m
  | none => w

/-- `VerticalAdvectionTerm.residual`, tracer_eq.py:213-238. -/
noncomputable def vAdvection (T : Term e) (F : Fields e) (c test : Sc e.m) : ℝ :=
  match F.w with
  | none => 0
  | some w3 =>
    let w := vertVelo F w3
    let f := e.m.dx fun x => -((c (.cell x)).v * (w (.cell x)).v * (test (.cell x)).g 2)
    let f := f + if T.vdg then
        e.dSh (fun s => cUp T c (avg w s * e.m.nm s 2) s * avg w s * jumpN test s 2) +
        if T.lf then
          e.dSh fun s => (1 / 2) * |avg w s * e.m.nm s 2| * F.lfFactor * (jump test s * jump c s)
        else 0
      else 0
    let f := f + e.dsurf fun b => (c (.bnd b)).v * (w (.bnd b)).v * e.m.nb b 2 * (test (.bnd b)).v
    Neg.neg f

/-- The penalty factor of the horizontal terms, tracer_eq.py:279-286; `cp`, the ratio of `FacetArea` and `CellVolume`
and the maximum of both sides. -/
noncomputable def sigmaH (T : Term e) (s : e.m.S) : ℝ :=
  let cp : ℝ := if T.triangle then (T.p + 1) * (T.p + 2) / 2 else (T.p + 1) ^ 2
  let sp := cp * e.m.areaS s / e.m.volP s
  let sm := cp * e.m.areaS s / e.m.volM s
  if sp > sm then sp else sm

/-- `HorizontalDiffusionTerm.residual`, tracer_eq.py:264-302. -/
noncomputable def hDiffusion (T : Term e) (F : Fields e) (c test : Sc e.m) : ℝ :=
  match F.diffH with
  | none => 0
  | some mu =>
    let fluxN : Pt e.m → (Fin 3 → ℝ) → ℝ := fun x n => (mu x).v * (c x).g 0 * n 0 + (mu x).v * (c x).g 1 * n 1
    let f := e.m.dx fun x => (test (.cell x)).g 0 * ((mu (.cell x)).v * (c (.cell x)).g 0) +
      (test (.cell x)).g 1 * ((mu (.cell x)).v * (c (.cell x)).g 1)
    let f := f + if T.hdg then
        e.m.dS fun s =>
          let sg := T.sipg * sigmaH T s
          let av : Sc e.m → Fin 3 → ℝ := fun h i =>
            (1 / 2) * ((mu (.plus s)).v * (h (.plus s)).g i + (mu (.minus s)).v * (h (.minus s)).g i)
          sg * (jumpN test s 0 * (avg mu s * jumpN c s 0) + jumpN test s 1 * (avg mu s * jumpN c s 1)) -
            (av test 0 * jumpN c s 0 + av test 1 * jumpN c s 1) -
            (jumpN test s 0 * av c 0 + jumpN test s 1 * av c 1)
      else 0
    let f := f + e.dbottom fun b => -(fluxN (.bnd b) (e.m.nb b) * (test (.bnd b)).v)
    let f := f + e.dsurf fun b => -(fluxN (.bnd b) (e.m.nb b) * (test (.bnd b)).v)
    Neg.neg f

/-- The penalty factor of the vertical terms, tracer_eq.py:340-347. -/
noncomputable def sigmaV (T : Term e) (s : e.m.S) : ℝ :=
  let cp : ℝ := (T.q + 1) ^ 2
  let sp := (T.sipgV (.plus s)).v * cp / (e.m.volP s / e.m.areaS s)
  let sm := (T.sipgV (.minus s)).v * cp / (e.m.volM s / e.m.areaS s)
  if sp > sm then sp else sm

/-- `VerticalDiffusionTerm.residual`, tracer_eq.py:326-358. -/
noncomputable def vDiffusion (T : Term e) (F : Fields e) (c test : Sc e.m) : ℝ :=
  match F.diffV with
  | none => 0
  | some mu =>
    let f := e.m.dx fun x => (test (.cell x)).g 2 * ((mu (.cell x)).v * (c (.cell x)).g 2)
    let f := f + if T.vdg then
        e.dSh fun s =>
          let av : Sc e.m → ℝ := fun h =>
            (1 / 2) * ((mu (.plus s)).v * (h (.plus s)).g 2 + (mu (.minus s)).v * (h (.minus s)).g 2)
          sigmaV T s * (jumpN test s 2 * (avg mu s * jumpN c s 2)) - av test * jumpN c s 2 -
            jumpN test s 2 * av c
      else 0
    Neg.neg f

/-- `SourceTerm.residual`, tracer_eq.py:372-377. -/
noncomputable def source (F : Fields e) (test : Sc e.m) : ℝ :=
  match F.source with
  | none => 0
  | some r => e.m.dx fun x => (r (.cell x)).v * (test (.cell x)).v

/-- `TracerEquation`, tracer_eq.py:402-411: the sum of the terms. -/
noncomputable def residual (T : Term e) (F : Fields e) (bc : ℕ → Option (BFuncs e)) (c test : Sc e.m) : ℝ :=
  hAdvection T F bc c test + vAdvection T F c test + hDiffusion T F c test + vDiffusion T F c test + source F test

end Verif.Tracer3
