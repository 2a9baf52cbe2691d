import Verif.Dg.Model

/-!
Model of `DepthIntegratedPoissonSolver`, utility.py:999-1106, in the setting of `Verif.Dg`.

Simplifications: the linear systems are solved exactly; function spaces are sets of expressions; `q`, `test`, `uv`, `w`,
elevation and depth are arbitrary expressions.
-/

namespace Verif.NonHyd

open Verif.Dg

variable {d : ℕ}

/-- Quotient of two expressions at a point, with the derivative UFL takes. -/
noncomputable def jdiv (a b : Jet d) : Jet d := ⟨a.v / b.v, fun i => (a.g i * b.v - a.v * b.g i) / b.v ^ 2⟩

/-- What the solver is given, utility.py:1021-1034: `rho0`, `dt`, the depth, the elevation and the intermediate velocities;
`open_ k` says that `bnd_functions['shallow_water']` has an entry for boundary `k`. -/
structure Flow (m : Mesh d) where
  rho0 : ℝ
  dt : ℝ
  depth : Depth m
  elev : Sc m
  uv : Vc m
  w : Sc m
  open_ : ℕ → Bool

variable {m : Mesh d} (F : Flow m)

/-- `h_star`, utility.py:1042. -/
noncomputable def Flow.h (x : Pt m) : Jet d := F.depth.total x (F.elev x)

/-- `w_b`, utility.py:1043. -/
noncomputable def Flow.wb (x : Pt m) : ℝ := -∑ i, (F.uv i x).v * (F.depth.bathymetry x).g i

/-- `grad_hori`, utility.py:1048. -/
def Flow.gh (x : Pt m) (i : Fin d) : ℝ := (F.elev x).g i - (F.depth.bathymetry x).g i

/-- `const`, utility.py:1055. -/
noncomputable def Flow.const : ℝ := 2 * F.rho0 / F.dt

/-- The integrand over the cells, utility.py:1046-1056. -/
noncomputable def cellForm (q test : Sc m) (x : Pt m) : ℝ :=
  -(∑ i, (q x).g i * (test x).g i)
    + (∑ i, F.gh x i / (F.h x).v * (q x).g i) * (test x).v
    + -(∑ i, (jdiv (q x * test x) (F.h x)).g i * F.gh x i)
    + -((∑ i, F.gh x i * (F.h x).g i) + 4) / (F.h x).v ^ 2 * (q x).v * (test x).v
    + F.const * ((∑ i, (test x).g i * (F.uv i x).v) - 2 * ((F.w x).v - F.wb x) / (F.h x).v * (test x).v)

/-- The integrand over boundary `k`, utility.py:1060-1067. -/
noncomputable def bndForm (q test : Sc m) (k : ℕ) (b : m.B) : ℝ :=
  if F.open_ k then
    (q (.bnd b)).v * (test (.bnd b)).v / (F.h (.bnd b)).v * (∑ i, F.gh (.bnd b) i * m.nb b i)
      + -F.const * (∑ i, (F.uv i (.bnd b)).v * m.nb b i) * (test (.bnd b)).v
  else 0

/-- The form `f`, utility.py:1046-1067. -/
noncomputable def form (q test : Sc m) : ℝ := m.dx (fun c => cellForm F q test (.cell c)) + m.bndLoop (bndForm F q test)

/-- `solver_q`, utility.py:1069-1074. The list `bcs` of Dirichlet conditions (utility.py:1059, 1064-1065) is not handed to
the problem, so the form vanishes for every test function of the space. -/
def SolvesQ (Q : Set (Sc m)) (q : Sc m) : Prop := q ∈ Q ∧ ∀ test ∈ Q, form F q test = 0

/-- The velocity that is projected, utility.py:1080. -/
noncomputable def uStar (q : Sc m) (x : Pt m) (i : Fin d) : ℝ :=
  (F.uv i x).v - 1 / 2 * F.dt / F.rho0 * ((q x).g i + F.gh x i / (F.h x).v * (q x).v)

/-- `solver_u`, utility.py:1075-1082: `u'` is the projection. -/
def SolvesU (U : Set (Vc m)) (q : Sc m) (u' : Vc m) : Prop :=
  u' ∈ U ∧ ∀ t ∈ U, m.dx (fun c => ∑ i, (u' i (.cell c)).v * (t i (.cell c)).v) =
    m.dx fun c => ∑ i, uStar F q (.cell c) i * (t i (.cell c)).v

/-- The vertical velocity that is projected, utility.py:1088. -/
noncomputable def wStar (q : Sc m) (x : Pt m) : ℝ := (F.w x).v + F.dt / F.rho0 * ((q x).v / (F.h x).v)

/-- `solver_w`, utility.py:1083-1095. -/
def SolvesW (W : Set (Sc m)) (q w' : Sc m) : Prop :=
  w' ∈ W ∧ ∀ t ∈ W, m.dx (fun c => (w' (.cell c)).v * (t (.cell c)).v) =
    m.dx fun c => wStar F q (.cell c) * (t (.cell c)).v

end Verif.NonHyd
