import Verif.Dg.Model

/-!
Model of the weak forms of thetis/tracer_eq_2d.py, in the setting of `Verif.Dg`.  A residual is the number
that the form takes for one test function.
-/

namespace Verif.Tracer2

open Verif.Dg

variable {m : Mesh 2}

/-- The entry of `bnd_conditions` for one boundary id: which keys it has, and their values;
tracer_eq_2d.py:94-113 and 267-268. -/
structure BFuncs (m : Mesh 2) where
  elev : Option (m.B → Jet 2) := none
  value : Option (m.B → Jet 2) := none
  uv : Option (m.B → Fin 2 → ℝ) := none
  flux : Option (m.B → ℝ) := none
  un : Option (m.B → ℝ) := none
  diffFlux : Option (m.B → ℝ) := none

/-- Members of `TracerTerm` (tracer_eq_2d.py:63-76) and options used by the terms.  `dg` is
`horizontal_dg`, `lf` is `use_lax_friedrichs_tracer`, `blen` is `boundary_len`, `p` the polynomial degree,
`z` the value of `sign(0)`. -/
structure Term (m : Mesh 2) where
  depth : Depth m
  dg : Bool
  lf : Bool
  blen : ℕ → ℝ
  sipg : Sc m
  p : ℕ
  triangle : Bool
  z : ℝ

/-- The entries of `fields_old` used by the advection terms, tracer_eq_2d.py:148-156 and 342-352.  The velocity factor and the
Lax-Friedrichs factor (a Constant) are taken as given; for a missing velocity factor see C69. -/
structure Flow (m : Mesh 2) where
  uv : Option (Vc m)
  elev : Sc m
  factor : Sc m
  lfFactor : ℝ
  uvP1 : Option (Vc m) := none
  uvMag : Option (Sc m) := none

/-- `get_bnd_functions`, tracer_eq_2d.py:78-115, at a boundary point. -/
noncomputable def bndFunctions (T : Term m) (factor : Sc m) (f : BFuncs m) (k : ℕ) (b : m.B)
    (cIn : Jet 2) (uvIn : Fin 2 → ℝ) (elevIn : Jet 2) : Jet 2 × (Fin 2 → ℝ) × Jet 2 :=
  let elevExt := match f.elev with
    | some e => e b
    | none => elevIn
  let cExt := match f.value with
    | some v => v b
    | none => cIn
  let uvExt : Fin 2 → ℝ := match f.uv with
    | some u => fun i => (factor (.bnd b)).v * u b i
    | none => match f.flux with
      | some q =>
        let hExt := (T.depth.total (.bnd b) elevExt).v
        let area := hExt * T.blen k
        fun i => (factor (.bnd b)).v * q b / area * m.nb b i
      | none => match f.un with
        | some u => fun i => u b * m.nb b i
        | none => uvIn
  (cExt, uvExt, elevExt)

/-- The velocity times its factor, tracer_eq_2d.py:154 and 348. -/
def corrected (F : Flow m) (uv : Vc m) : Vc m := fun i => F.factor * uv i

/-- The mean normal velocity at an interior facet, tracer_eq_2d.py:164-166 and 360-362. -/
noncomputable def unAv (uv : Vc m) (s : m.S) : ℝ := avg (uv 0) s * m.nm s 0 + avg (uv 1) s * m.nm s 1

/-- The upwind switch, tracer_eq_2d.py:167, 185, 273, 363 and 387. -/
noncomputable def upwind (T : Term m) (un : ℝ) : ℝ := (1 / 2) * (sgn T.z un + 1)

/-- The upwind value at a boundary point times the mean normal velocity, tracer_eq_2d.py:181-191. -/
noncomputable def advBndFlux (T : Term m) (F : Flow m) (uv : Vc m) (bc : ℕ → Option (BFuncs m))
    (c : Sc m) (k : ℕ) (b : m.B) : ℝ :=
  let n := m.nb b
  let uvB : Fin 2 → ℝ := fun i => (uv i (.bnd b)).v
  let cIn := c (.bnd b)
  match bc k with
  | some funcs =>
    let r := bndFunctions T F.factor funcs k b cIn uvB (F.elev (.bnd b))
    let uvAv : Fin 2 → ℝ := fun i => (1 / 2) * (uvB i + r.2.1 i)
    let sw := upwind T (n 0 * uvAv 0 + n 1 * uvAv 1)
    let cUp := cIn.v * sw + r.1.v * (1 - sw)
    cUp * (uvAv 0 * n 0 + uvAv 1 * n 1)
  | none => cIn.v * (uvB 0 * n 0 + uvB 1 * n 1)

/-- `HorizontalAdvectionTerm.residual`, tracer_eq_2d.py:147-193. -/
noncomputable def advection (T : Term m) (F : Flow m) (bc : ℕ → Option (BFuncs m)) (c test : Sc m) : ℝ :=
  match F.uv with
  | none => 0
  | some uv2 =>
    let uv := corrected F uv2
    let f := m.dx fun x => -(((uv 0 * test) (.cell x)).g 0 * (c (.cell x)).v +
      ((uv 1 * test) (.cell x)).g 1 * (c (.cell x)).v)
    let f := f + if T.dg then
        m.dS (fun s =>
          let sw := upwind T (unAv uv s)
          let cUp := (c (.minus s)).v * sw + (c (.plus s)).v * (1 - sw)
          cUp * (((test (.plus s)).v * ((uv 0 (.plus s)).v * m.np s 0) +
              (test (.minus s)).v * ((uv 0 (.minus s)).v * m.nm s 0)) +
            ((test (.plus s)).v * ((uv 1 (.plus s)).v * m.np s 1) +
              (test (.minus s)).v * ((uv 1 (.minus s)).v * m.nm s 1)))) +
        if T.lf then
          m.dS fun s => (1 / 2) * |unAv uv s| * F.lfFactor * (jump test s * jump c s)
        else 0
      else 0
    let f := f + m.bndLoop fun k b => advBndFlux T F uv bc c k b * (test (.bnd b)).v
    Neg.neg f

/-- The Lax-Friedrichs coefficient of the conservative form, tracer_eq_2d.py:370-376. -/
noncomputable def consGamma (F : Flow m) (uv : Vc m) (s : m.S) : ℝ :=
  match F.uvP1 with
  | some u => (1 / 2) * |avg (u 0) s * m.nm s 0 + avg (u 1) s * m.nm s 1| * F.lfFactor
  | none => match F.uvMag with
    | some u => (1 / 2) * avg u s * F.lfFactor
    | none => (1 / 2) * |unAv uv s| * F.lfFactor

/-- The upwind flux of the conservative form at an interior facet, tracer_eq_2d.py:364. -/
noncomputable def consFlux (T : Term m) (uv : Vc m) (c : Sc m) (s : m.S) (i : Fin 2) : ℝ :=
  let sw := upwind T (unAv uv s)
  (c (.minus s)).v * (uv i (.minus s)).v * sw + (c (.plus s)).v * (uv i (.plus s)).v * (1 - sw)

/-- The flux through a boundary point in the conservative form, tracer_eq_2d.py:383-393. -/
noncomputable def consBndFlux (T : Term m) (F : Flow m) (uv : Vc m) (bc : ℕ → Option (BFuncs m))
    (c : Sc m) (k : ℕ) (b : m.B) : ℝ :=
  let n := m.nb b
  let uvB : Fin 2 → ℝ := fun i => (uv i (.bnd b)).v
  let cIn := c (.bnd b)
  match bc k with
  | some funcs =>
    let r := bndFunctions T F.factor funcs k b cIn uvB (F.elev (.bnd b))
    let uvAv : Fin 2 → ℝ := fun i => (1 / 2) * (uvB i + r.2.1 i)
    let sw := upwind T (n 0 * uvAv 0 + n 1 * uvAv 1)
    let flux : Fin 2 → ℝ := fun i => cIn.v * uvB i * sw + r.1.v * r.2.1 i * (1 - sw)
    flux 0 * n 0 + flux 1 * n 1
  | none => cIn.v * (uvB 0 * n 0 + uvB 1 * n 1)

/-- `ConservativeHorizontalAdvectionTerm.residual`, tracer_eq_2d.py:341-395; `bc = none` if no boundary
conditions are passed. -/
noncomputable def consAdvection (T : Term m) (F : Flow m) (bc : Option (ℕ → Option (BFuncs m)))
    (c test : Sc m) : ℝ :=
  match F.uv with
  | none => 0
  | some uv2 =>
    let uv := corrected F uv2
    let f := m.dx fun x => -((test (.cell x)).g 0 * (uv 0 (.cell x)).v * (c (.cell x)).v +
      (test (.cell x)).g 1 * (uv 1 (.cell x)).v * (c (.cell x)).v)
    let f := f + if T.dg then
        m.dS (fun s => consFlux T uv c s 0 * jumpN test s 0 + consFlux T uv c s 1 * jumpN test s 1) +
        if T.lf then m.dS fun s => consGamma F uv s * (jump test s * jump c s) else 0
      else 0
    let f := f + match bc with
      | some bc => m.bndLoop fun k b => consBndFlux T F uv bc c k b * (test (.bnd b)).v
      | none => 0
    Neg.neg f

/-- The penalty of the interior penalty method, tracer_eq_2d.py:243-246 for one side: `vol` and `area` of
the cell and the facet. -/
noncomputable def sigma (T : Term m) (sipg vol area : ℝ) : ℝ :=
  let cp : ℝ := if T.triangle then (T.p + 1) * (T.p + 2) / 2 else (T.p + 1) ^ 2
  sipg * cp / (vol / area)

/-- `sigma_max`, tracer_eq_2d.py:247-249. -/
noncomputable def sigmaMax (T : Term m) (s : m.S) : ℝ :=
  let sp := sigma T (T.sipg (.plus s)).v (m.volP s) (m.areaS s)
  let sm := sigma T (T.sipg (.minus s)).v (m.volM s) (m.areaS s)
  if sp > sm then sp else sm

/-- `avg(dot(diff_tensor, grad(f)))`, component `i`, tracer_eq_2d.py:254-257. -/
noncomputable def avgFlux (mu f : Sc m) (s : m.S) (i : Fin 2) : ℝ :=
  (1 / 2) * ((mu (.plus s)).v * (f (.plus s)).g i + (mu (.minus s)).v * (f (.minus s)).g i)

/-- The diffusive flux into the domain at a boundary point, tracer_eq_2d.py:263-276. -/
noncomputable def diffBndFlux (T : Term m) (F : Flow m) (mu : Sc m) (bc : ℕ → Option (BFuncs m))
    (c : Sc m) (k : ℕ) (b : m.B) : ℝ :=
  let n := m.nb b
  let cIn := c (.bnd b)
  match bc k with
  | none => 0
  | some funcs =>
    match funcs.diffFlux with
    | some q => q b
    | none =>
      let uvB : Fin 2 → ℝ := match F.uv with
        | some uv => fun i => (corrected F uv i (.bnd b)).v
        | none => fun _ => 0
      let r := bndFunctions T F.factor funcs k b cIn uvB (F.elev (.bnd b))
      let uvAv : Fin 2 → ℝ := fun i => (1 / 2) * (uvB i + r.2.1 i)
      let sw := upwind T (n 0 * uvAv 0 + n 1 * uvAv 1)
      let gradUp : Fin 2 → ℝ := fun i => cIn.g i * sw + r.1.g i * (1 - sw)
      ∑ i, (mu (.bnd b)).v * gradUp i * n i

/-- `HorizontalDiffusionTerm.residual`, tracer_eq_2d.py:226-278. -/
noncomputable def diffusion (T : Term m) (F : Flow m) (mu : Option (Sc m)) (bc : ℕ → Option (BFuncs m))
    (c test : Sc m) : ℝ :=
  match mu with
  | none => 0
  | some mu =>
    let f := m.dx fun x => ∑ i, (test (.cell x)).g i * ((mu (.cell x)).v * (c (.cell x)).g i)
    let f := f + if T.dg then
        m.dS (fun s => sigmaMax T s * ∑ i, jumpN test s i * (avg mu s * jumpN c s i)) +
        m.dS (fun s => -∑ i, avgFlux mu test s i * jumpN c s i) +
        m.dS (fun s => -∑ i, jumpN test s i * avgFlux mu c s i)
      else 0
    let f := f + m.bndLoop fun k b => -(diffBndFlux T F mu bc c k b * (test (.bnd b)).v)
    Neg.neg f

/-- `SourceTerm.residual`, tracer_eq_2d.py:293-298. -/
def source (src : Option (Sc m)) (test : Sc m) : ℝ :=
  match src with
  | some s => -(m.dx fun x => -((s (.cell x)).v * (test (.cell x)).v))
  | none => 0

/-- `ConservativeSourceTerm.residual`, tracer_eq_2d.py:439-445. -/
noncomputable def consSource (T : Term m) (elev : Sc m) (src : Option (Sc m)) (test : Sc m) : ℝ :=
  match src with
  | some s => -(m.dx fun x => -((T.depth.total (.cell x) (elev (.cell x))).v * (s (.cell x)).v *
      (test (.cell x)).v))
  | none => 0

end Verif.Tracer2
