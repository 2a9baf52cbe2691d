import Mathlib.Algebra.BigOperators.Group.Finset.Basic
import Mathlib.Algebra.Module.Basic
import Mathlib.Analysis.Real.Sqrt
import Mathlib.LinearAlgebra.Matrix.NonsingularInverse

/-!
Model of the Runge-Kutta machinery of `thetis/rungekutta.py` and `thetis/implicitexplicit.py`,
and of the two-level schemes of `thetis/timeintegrator.py`.

A finite element function space is a real vector space `V`; the mass matrix has been inverted,
i.e. `R` maps a function to the Riesz representative of the assembled residual.  Nonlinear
solvers are a function `root` that returns some function for every residual; theorems assume
that it returns a zero when the zero exists and is unique (`RootFinder`).  Right-hand sides carry
the stage number, because `update_forcings` is called with the stage time before each stage.
Floating point rounding is not modelled.
-/

namespace Verif.RK

open Finset

/-! ### Butcher tableaux, rungekutta.py:90-408 -/

/-- The class attributes `a`, `b`, `c` of an `AbstractRKScheme`, rungekutta.py:90-139. -/
structure Tableau where
  n : ℕ
  a : ℕ → ℕ → ℝ
  b : ℕ → ℝ
  c : ℕ → ℝ

/-- A vector given by its entries. -/
def vec (l : List ℝ) : ℕ → ℝ := fun i => l.getD i 0

/-- A tableau given by the rows of `a`, by `b` and by `c`. -/
def mk (a : List (List ℝ)) (b c : List ℝ) : Tableau :=
  ⟨b.length, fun i j => (a.getD i []).getD j 0, vec b, vec c⟩

/-- The assertions of `AbstractRKScheme.__init__`, rungekutta.py:129-130 (`numpy.allclose` is
read as equality). -/
def Tableau.Accepted (T : Tableau) : Prop :=
  (∀ i < T.n, ∀ j < T.n, i < j → T.a i j = 0) ∧
  ∀ i < T.n, ∑ j ∈ range T.n, T.a i j = T.c i

/-- rungekutta.py:142-149 (`ForwardEulerAbstract`). -/
noncomputable def forwardEuler : Tableau := mk [[0]] [1] [0]
/-- rungekutta.py:152-159 (`BackwardEulerAbstract`). -/
noncomputable def backwardEuler : Tableau := mk [[1]] [1] [1]
/-- rungekutta.py:162-178 (`ImplicitMidpointAbstract`). -/
noncomputable def implicitMidpoint : Tableau := mk [[1 / 2]] [1] [1 / 2]
/-- rungekutta.py:181-188 (`CrankNicolsonAbstract`). -/
noncomputable def crankNicolson : Tableau := mk [[0, 0], [1 / 2, 1 / 2]] [1 / 2, 1 / 2] [0, 1]

/-- `gamma` of rungekutta.py:213. -/
noncomputable def γ22 : ℝ := (2 - Real.sqrt 2) / 2
/-- rungekutta.py:192-218 (`DIRK22Abstract`). -/
noncomputable def dirk22 : Tableau := mk [[γ22, 0], [1 - γ22, γ22]] [1 - γ22, γ22] [γ22, 1]

/-- `gamma` of rungekutta.py:242. -/
noncomputable def γ23 : ℝ := (3 + Real.sqrt 3) / 6
/-- rungekutta.py:221-247 (`DIRK23Abstract`). -/
noncomputable def dirk23 : Tableau :=
  mk [[γ23, 0], [1 - 2 * γ23, γ23]] [1 / 2, 1 / 2] [γ23, 1 - γ23]

/-- `gamma` of rungekutta.py:260. -/
noncomputable def γ33 : ℝ := 4358665215 / 10000000000
/-- `b1` of rungekutta.py:261. -/
noncomputable def b33₁ : ℝ := -3 / 2 * γ33 ^ 2 + 4 * γ33 - 1 / 4
/-- `b2` of rungekutta.py:262. -/
noncomputable def b33₂ : ℝ := 3 / 2 * γ33 ^ 2 - 5 * γ33 + 5 / 4
/-- rungekutta.py:250-268 (`DIRK33Abstract`). -/
noncomputable def dirk33 : Tableau :=
  mk [[γ33, 0, 0], [(1 - γ33) / 2, γ33, 0], [b33₁, b33₂, γ33]] [b33₁, b33₂, γ33]
    [γ33, (1 + γ33) / 2, 1]
/-- rungekutta.py:271-287 (`DIRK43Abstract`). -/
noncomputable def dirk43 : Tableau :=
  mk [[1 / 2, 0, 0, 0], [1 / 6, 1 / 2, 0, 0], [-1 / 2, 1 / 2, 1 / 2, 0],
    [3 / 2, -3 / 2, 1 / 2, 1 / 2]] [3 / 2, -3 / 2, 1 / 2, 1 / 2] [1 / 2, 2 / 3, 1 / 2, 1]
/-- rungekutta.py:290-305 (`DIRKLSPUM2Abstract`). -/
noncomputable def dirkLSPUM2 : Tableau :=
  mk [[2 / 11, 0, 0], [205 / 462, 2 / 11, 0], [2033 / 4620, 21 / 110, 2 / 11]]
    [24 / 55, 1 / 5, 4 / 11] [2 / 11, 289 / 462, 751 / 924]
/-- rungekutta.py:308-323 (`DIRKLPUM2Abstract`). -/
noncomputable def dirkLPUM2 : Tableau :=
  mk [[2 / 11, 0, 0], [41 / 154, 2 / 11, 0], [289 / 847, 42 / 121, 2 / 11]]
    [1 / 3, 1 / 3, 1 / 3] [2 / 11, 69 / 154, 67 / 77]
/-- rungekutta.py:326-347 (`SSPRK33Abstract`). -/
noncomputable def ssprk33 : Tableau :=
  mk [[0, 0, 0], [1, 0, 0], [1 / 4, 1 / 4, 0]] [1 / 6, 1 / 6, 2 / 3] [0, 1, 1 / 2]
/-- rungekutta.py:350-365 (`ERKLSPUM2Abstract`). -/
noncomputable def erkLSPUM2 : Tableau :=
  mk [[0, 0, 0], [5 / 6, 0, 0], [11 / 24, 11 / 24, 0]] [24 / 55, 1 / 5, 4 / 11] [0, 5 / 6, 11 / 12]
/-- rungekutta.py:368-384 (`ERKLPUM2Abstract`). -/
noncomputable def erkLPUM2 : Tableau :=
  mk [[0, 0, 0], [1 / 2, 0, 0], [1 / 2, 1 / 2, 0]] [1 / 3, 1 / 3, 1 / 3] [0, 1 / 2, 1]
/-- rungekutta.py:387-392 (`ERKMidpointAbstract`). -/
noncomputable def erkMidpoint : Tableau := mk [[0, 0], [1 / 2, 0]] [0, 1] [0, 1 / 2]
/-- rungekutta.py:395-400 (`ESDIRKMidpointAbstract`). -/
noncomputable def esdirkMidpoint : Tableau := mk [[0, 0], [0, 1 / 2]] [0, 1] [0, 1 / 2]
/-- rungekutta.py:403-408 (`ESDIRKTrapezoidAbstract`). -/
noncomputable def esdirkTrapezoid : Tableau := mk [[0, 0], [1 / 2, 1 / 2]] [1 / 2, 1 / 2] [0, 1]

/-! ### `butcher_to_shuosher_form`, rungekutta.py:13-87 -/

/-- The stacked array `butcher` (rungekutta.py:33): rows of `a`, then `b`. -/
def Tableau.butcher (T : Tableau) (i j : ℕ) : ℝ := if i < T.n then T.a i j else T.b j

/-- Entries below `1e-13` are set to zero, rungekutta.py:75-77. -/
noncomputable def chop (x : ℝ) : ℝ := if |x| < 1 / 10 ^ 13 then 0 else x

/-- Coefficients of the Shu-Osher form. -/
structure ShuOsher where
  α : ℕ → ℕ → ℝ
  β : ℕ → ℕ → ℝ

/-- `aa` of the explicit branch: `butcher[1:, :]`, rungekutta.py:60. -/
def Tableau.aa (T : Tableau) : Matrix (Fin T.n) (Fin T.n) ℝ :=
  Matrix.of fun i j => T.butcher (i + 1) j

/-- `be_0` of the explicit branch: the diagonal of `aa`, rungekutta.py:62. -/
def Tableau.be0 (T : Tableau) : Matrix (Fin T.n) (Fin T.n) ℝ :=
  Matrix.diagonal fun i => T.aa i i

/-- `al_0` of the explicit branch, rungekutta.py:65. -/
noncomputable def Tableau.al0 (T : Tableau) : Matrix (Fin T.n) (Fin T.n) ℝ :=
  1 - T.be0 * (T.aa)⁻¹

/-- Read a square array at natural number indices (zero outside). -/
def at0 {n : ℕ} (A : Matrix (Fin n) (Fin n) ℝ) (i j : ℕ) : ℝ :=
  if h : i < n ∧ j < n then A ⟨i, h.1⟩ ⟨j, h.2⟩ else 0

/-- `alpha` of the explicit branch before rounding, rungekutta.py:67-71: `alpha[1:, 1:] = al_0`,
the first column makes the row sums one. -/
noncomputable def Tableau.alpha (T : Tableau) : ℕ → ℕ → ℝ
  | 0, 0 => 1
  | 0, _ + 1 => 0
  | i + 1, 0 => 1 - ∑ j ∈ range T.n, at0 T.al0 i j
  | i + 1, j + 1 => at0 T.al0 i j

/-- `beta` of the explicit branch before rounding, rungekutta.py:72-73: `beta[1:, :-1] = be_0`. -/
noncomputable def Tableau.beta (T : Tableau) : ℕ → ℕ → ℝ
  | 0, _ => 0
  | i + 1, j => at0 T.be0 i j

/-- `butcher_to_shuosher_form` for an explicit tableau; `none` when `numpy.linalg.inv` raises.
The final assertions (rungekutta.py:79-85) are the subject of `C20`. -/
noncomputable def toShuOsher (T : Tableau) : Option ShuOsher :=
  if T.aa.det = 0 then none
  else some ⟨fun i j => chop (T.alpha i j), fun i j => chop (T.beta i j)⟩

/-- `a` as a square array. -/
def Tableau.aMat (T : Tableau) : Matrix (Fin T.n) (Fin T.n) ℝ := Matrix.of fun i j => T.a i j

/-- `be_0` of the implicit branch, rungekutta.py:40. -/
def Tableau.be0I (T : Tableau) : Matrix (Fin T.n) (Fin T.n) ℝ := Matrix.diagonal fun i => T.a i i

/-- `be_1` of the implicit branch, rungekutta.py:41-42. -/
def Tableau.be1I (T : Tableau) (j : ℕ) : ℝ := if j + 1 = T.n then T.b j else 0

/-- `al_0` of the implicit branch, rungekutta.py:47. -/
noncomputable def Tableau.al0I (T : Tableau) : Matrix (Fin T.n) (Fin T.n) ℝ :=
  1 - T.be0I * (T.aMat)⁻¹

/-- `al_1` of the implicit branch, rungekutta.py:48. -/
noncomputable def Tableau.al1I (T : Tableau) (j : Fin T.n) : ℝ :=
  ∑ m : Fin T.n, (T.b m - T.be1I m) * ((T.be0I)⁻¹ * (1 - T.al0I)) m j

/-- `alpha[:, 1:]` of the implicit branch before rounding, rungekutta.py:49-53. -/
noncomputable def Tableau.alphaI (T : Tableau) (i : ℕ) (j : Fin T.n) : ℝ :=
  if h : i < T.n then T.al0I ⟨i, h⟩ j else T.al1I j

/-- `alpha[:, 0]` of the implicit branch, rungekutta.py:55. -/
noncomputable def Tableau.alphaI0 (T : Tableau) (i : ℕ) : ℝ := 1 - ∑ j : Fin T.n, T.alphaI i j

/-- `beta[:, 1:]` of the implicit branch, rungekutta.py:56-57. -/
def Tableau.betaI (T : Tableau) (i : ℕ) (j : Fin T.n) : ℝ :=
  if h : i < T.n then T.be0I ⟨i, h⟩ j else T.be1I j

/-! ### Stage loops -/

/-- `for i in range(n): stage(i)`, e.g. rungekutta.py:433-434. -/
def loop {S : Type*} (stage : ℕ → S → S) : ℕ → S → S
  | 0, s => s
  | m + 1, s => stage m (loop stage m s)

section Integrators

variable {V : Type*} [AddCommGroup V] [Module ℝ V]

/-! ### ERKGeneric, rungekutta.py:762-867 -/

/-- State of `ERKGeneric`. -/
structure Erk (V : Type*) where
  sol : V
  old : V
  k : ℕ → V
  inited : Bool

/-- `update_solution`, rungekutta.py:826-838 (`additive=False`, the only use in the code base). -/
def Erk.updateSolution (T : Tableau) (i : ℕ) (s : Erk V) : Erk V :=
  { s with sol := if 0 < i then s.old + ∑ j ∈ range i, T.a i j • s.k j else s.old }

/-- `solve_tendency`, rungekutta.py:841-848: the time step is included in the tendency. -/
def Erk.solveTendency (dt : ℝ) (F : ℕ → V → V) (i : ℕ) (s : Erk V) : Erk V :=
  { s with k := Function.update s.k i (dt • F i s.sol) }

/-- `get_final_solution`, rungekutta.py:851-861. -/
def Erk.getFinal (T : Tableau) (s : Erk V) : Erk V :=
  let u := s.old + ∑ j ∈ range T.n, T.b j • s.k j
  { s with sol := u, old := u }

/-- `initialize`, rungekutta.py:820-823. -/
def Erk.initialize (s : Erk V) : Erk V := { s with old := s.sol, inited := true }

/-- `solve_stage`, rungekutta.py:864-867. -/
def Erk.stage (T : Tableau) (dt : ℝ) (F : ℕ → V → V) (i : ℕ) (s : Erk V) : Erk V :=
  (s.updateSolution T i).solveTendency dt F i

/-- `advance`, rungekutta.py:429-435. -/
def Erk.advance (T : Tableau) (dt : ℝ) (F : ℕ → V → V) (s : Erk V) : Erk V :=
  (loop (Erk.stage T dt F) T.n (if s.inited then s else s.initialize)).getFinal T

/-! ### ERKGenericShuOsher, rungekutta.py:870-952 -/

/-- State of `ERKGenericShuOsher`. -/
structure Sho (V : Type*) where
  sol : V
  stageSol : ℕ → V

/-- `solve_stage`, rungekutta.py:930-946, coefficients from 908-914. -/
def Sho.stage (n : ℕ) (C : ShuOsher) (dt : ℝ) (F : ℕ → V → V) (i : ℕ) (s : Sho V) : Sho V :=
  let st := if i = 0 then Function.update s.stageSol 0 s.sol else s.stageSol
  let tend := dt • F i s.sol
  let sol := C.β (i + 1) i • tend + ∑ j ∈ range (i + 1), C.α (i + 1) j • st j
  ⟨sol, if i + 1 < n then Function.update st (i + 1) sol else st⟩

/-- `advance`, rungekutta.py:949-952. -/
def Sho.advance (n : ℕ) (C : ShuOsher) (dt : ℝ) (F : ℕ → V → V) (s : Sho V) : Sho V :=
  loop (Sho.stage n C dt F) n s

/-! ### DIRKGeneric, rungekutta.py:438-577 -/

/-- State of `DIRKGeneric` and `DIRKGenericUForm`.  (`_initialized` only decides whether
`solution_old` is set at the start; stage 0 overwrites it in any case.) -/
structure Dirk (V : Type*) where
  sol : V
  old : V
  k : ℕ → V

/-- `solve_tendency`, rungekutta.py:555-566, with the form of rungekutta.py:495-516.  `R i u v`
is the residual at the forcings of stage `i`, with `v` in the slot `solution_old` of the
equation (the state around which coefficients are evaluated).  In the code the linearisation
state `u_nl` is bound (rungekutta.py:484-490) to `solution_old`, or to the *function*
`self.solution`; the latter holds the previous stage value while stage `i` is solved. -/
def Dirk.solveTendency (T : Tableau) (dt : ℝ) (semi : Bool) (R : ℕ → V → V → V)
    (root : (V → V) → V) (i : ℕ) (s : Dirk V) : Dirk V :=
  let old := if i = 0 then s.sol else s.old
  let nl := if semi then old else s.sol
  { s with
    old := old
    k := Function.update s.k i (root fun k =>
      -k + R i (old + ∑ j ∈ range i, (T.a i j * dt) • s.k j + (T.a i i * dt) • k) nl) }

/-- `update_solution`, rungekutta.py:546-552. -/
def Dirk.updateSolution (T : Tableau) (dt : ℝ) (i : ℕ) (s : Dirk V) : Dirk V :=
  { s with sol := s.old + ∑ j ∈ range (i + 1), (dt * T.a i j) • s.k j }

/-- `get_final_solution`, rungekutta.py:569-571. -/
def Dirk.getFinal (T : Tableau) (dt : ℝ) (s : Dirk V) : Dirk V :=
  { s with sol := s.old + ∑ j ∈ range T.n, (dt * T.b j) • s.k j }

/-- `solve_stage`, rungekutta.py:574-577. -/
def Dirk.stage (T : Tableau) (dt : ℝ) (semi : Bool) (R : ℕ → V → V → V)
    (root : (V → V) → V) (i : ℕ) (s : Dirk V) : Dirk V :=
  (s.solveTendency T dt semi R root i).updateSolution T dt i

/-- `advance`, rungekutta.py:429-435. -/
def Dirk.advance (T : Tableau) (dt : ℝ) (semi : Bool) (R : ℕ → V → V → V)
    (root : (V → V) → V) (s : Dirk V) : Dirk V :=
  (loop (Dirk.stage T dt semi R root) T.n s).getFinal T dt

/-! ### DIRKGenericUForm, rungekutta.py:580-711 -/

/-- `solve_stage`, rungekutta.py:696-711, with the forms of rungekutta.py:634-649.  Here the
unknown is the function `solution` itself, so `u_nl` is the unknown unless semi-implicit.  The
mass term is taken to be the plain inner product (`Equation.mass_term`, equation.py:99-105). -/
def Dirk.stageU (T : Tableau) (dt : ℝ) (semi : Bool) (R : ℕ → V → V → V)
    (root : (V → V) → V) (i : ℕ) (s : Dirk V) : Dirk V :=
  let old := if i = 0 then s.sol else s.old
  let u := root fun u =>
    (u - old) - ((dt * T.a i i) • R i u (if semi then old else u)
      + ∑ j ∈ range i, (dt * T.a i j) • s.k j)
  { sol := u
    old := old
    k := if i < T.n - 1 then
        Function.update s.k i (root fun k =>
          (dt * T.a i i) • k - (u - old) + ∑ j ∈ range i, (dt * T.a i j) • s.k j)
      else s.k }

/-- `advance` for the solution form; `get_final_solution` does nothing (rungekutta.py:689-693). -/
def Dirk.advanceU (T : Tableau) (dt : ℝ) (semi : Bool) (R : ℕ → V → V → V)
    (root : (V → V) → V) (s : Dirk V) : Dirk V :=
  loop (Dirk.stageU T dt semi R root) T.n s

/-! ### IMEXGeneric, implicitexplicit.py:8-117 -/

/-- State: both integrators share the function `solution`. -/
structure Imex (V : Type*) where
  sol : V
  erkOld : V
  dirkOld : V
  ke : ℕ → V
  kd : ℕ → V

/-- The explicit half of the state. -/
def Imex.erk (s : Imex V) : Erk V := ⟨s.sol, s.erkOld, s.ke, true⟩
/-- The implicit half of the state. -/
def Imex.dirk (s : Imex V) : Dirk V := ⟨s.sol, s.dirkOld, s.kd⟩
/-- Write back the explicit half. -/
def Imex.putErk (s : Imex V) (e : Erk V) : Imex V :=
  { s with sol := e.sol, erkOld := e.old, ke := e.k }
/-- Write back the implicit half. -/
def Imex.putDirk (s : Imex V) (d : Dirk V) : Imex V :=
  { s with sol := d.sol, dirkOld := d.old, kd := d.k }

/-- `initialize`, implicitexplicit.py:67-71. -/
def Imex.initialize (s : Imex V) : Imex V := { s with erkOld := s.sol, dirkOld := s.sol }

/-- `solve_stage`, implicitexplicit.py:80-94. -/
def Imex.stage (TE TI : Tableau) (dt : ℝ) (semi : Bool) (FE : ℕ → V → V) (FI : ℕ → V → V → V)
    (root : (V → V) → V) (i : ℕ) (s : Imex V) : Imex V :=
  let s := s.putErk (s.erk.updateSolution TE i)
  let s := { s with dirkOld := s.sol }
  let s := s.putDirk (s.dirk.solveTendency TI dt semi FI root i)
  let s := s.putDirk (s.dirk.updateSolution TI dt i)
  s.putErk (s.erk.solveTendency dt FE i)

/-- `get_final_solution`, implicitexplicit.py:96-108. -/
def Imex.getFinal (TE TI : Tableau) (dt : ℝ) (s : Imex V) : Imex V :=
  let s := s.putErk (s.erk.getFinal TE)
  let s := { s with dirkOld := s.sol }
  let s := s.putDirk (s.dirk.getFinal TI dt)
  { s with erkOld := s.sol }

/-- `advance`, implicitexplicit.py:73-78 (the stage count is that of the explicit scheme, equal to
the implicit one by the assertion at line 55). -/
def Imex.advance (TE TI : Tableau) (dt : ℝ) (semi : Bool) (FE : ℕ → V → V) (FI : ℕ → V → V → V)
    (root : (V → V) → V) (s : Imex V) : Imex V :=
  (loop (Imex.stage TE TI dt semi FE FI root) TE.n s).getFinal TE TI dt

/-! ### Two-level schemes, timeintegrator.py -/

/-- State of `ForwardEuler` and `CrankNicolson`: solution, lagged solution and the lagged
coefficient fields (`fields_old`). -/
structure TwoLevel (V P : Type*) where
  sol : V
  old : V
  fieldsOld : P

/-- `ForwardEuler.advance`, timeintegrator.py:159-165, with the form of lines 138-142.  `p` are the
coefficient fields after `update_forcings`; `R u v p` is the residual. -/
def TwoLevel.forwardEuler {P : Type*} (dt : ℝ) (R : V → V → P → V) (p : P)
    (s : TwoLevel V P) : TwoLevel V P :=
  ⟨s.sol + dt • R s.sol s.sol s.fieldsOld, s.sol, p⟩

/-- The theta form, timeintegrator.py:196-212, as a residual in the unknown `u`. -/
def thetaForm {P : Type*} (θ dt : ℝ) (semi : Bool) (R : V → V → P → V) (p pOld : P)
    (old u : V) : V :=
  (u - old) - dt • (θ • R u (if semi then old else u) p + (1 - θ) • R old old pOld)

/-- `CrankNicolson.advance`, timeintegrator.py:235-241. -/
def TwoLevel.crankNicolson {P : Type*} (θ dt : ℝ) (semi : Bool) (R : V → V → P → V)
    (root : (V → V) → V) (p : P) (s : TwoLevel V P) : TwoLevel V P :=
  ⟨root (thetaForm θ dt semi R p s.fieldsOld s.sol), s.sol, p⟩

/-- `CrankNicolson.advance_picard`, timeintegrator.py:244-252. -/
def TwoLevel.picard {P : Type*} (θ dt : ℝ) (semi : Bool) (R : V → V → P → V)
    (root : (V → V) → V) (p : P) (updateLagged updateFields : Bool)
    (s : TwoLevel V P) : TwoLevel V P :=
  let old := if updateLagged then s.sol else s.old
  ⟨root (thetaForm θ dt semi R p s.fieldsOld old), old, if updateFields then p else s.fieldsOld⟩

/-! ### Moving mesh schemes -/

/-- State of `SSPRK22ALE`, timeintegrator.py:609-770: the solution in `V`, assembled vectors in the
dual space `W`. -/
structure Ale (V W : Type*) where
  sol : V
  muOld : W
  mu : W

variable {W : Type*} [AddCommGroup W] [Module ℝ W]

/-- `stage_one_prep`, timeintegrator.py:673-686: `M` is the mass operator of the
current mesh, `L` the assembled right-hand side (without dt). -/
def Ale.prep1 (dt : ℝ) (M : V → W) (L : V → W) (s : Ale V W) : Ale V W :=
  { s with muOld := M s.sol, mu := M s.sol + dt • L s.sol }

/-- `stage_two_prep`, timeintegrator.py:708-718. -/
noncomputable def Ale.prep2 (dt : ℝ) (L : V → W) (s : Ale V W) : Ale V W :=
  { s with mu := (1 / 2 : ℝ) • s.mu + (1 / 2 : ℝ) • s.muOld + (1 / 2 : ℝ) • (dt • L s.sol) }

/-- `stage_one_solve`, `stage_two_solve`, timeintegrator.py:689-705 and 721-739: solve with the mass operator of the new mesh. -/
def Ale.solve (Minv : W → V) (s : Ale V W) : Ale V W := { s with sol := Minv s.mu }

/-- `advance`, timeintegrator.py:764-770, with the mesh updates of the coupled integrator made
explicit: the three meshes have mass operators `M₀`, and inverses `Minv₁`, `Minv₂`. -/
noncomputable def Ale.advance (dt : ℝ) (M₀ : V → W) (L₀ L₁ : V → W) (Minv₁ Minv₂ : W → V)
    (s : Ale V W) : Ale V W :=
  (((s.prep1 dt M₀ L₀).solve Minv₁).prep2 dt L₁).solve Minv₂

/-- State of `LeapFrogAM3`, timeintegrator.py:467-606.  `minv` is the solver for the assembled
mass matrix; it is reassembled only in `correct` (and `initialize`). -/
structure Leap (V W : Type*) where
  sol : V
  old : V
  msolOld : W
  rhs : W
  minv : W → V

/-- `γ` of timeintegrator.py:501. -/
noncomputable def lfγ : ℝ := 1 / 12

/-- `initialize`, timeintegrator.py:527-533, on a mesh with mass operator `M`. -/
def Leap.initialize (M : V → W) (Minv : W → V) (u : V) (rhs : W) : Leap V W :=
  ⟨u, u, M u, rhs, Minv⟩

/-- `predict`, timeintegrator.py:546-568 with the weights of lines 518-521: forms are assembled on
the current mesh, the system is solved with the stored mass matrix. -/
noncomputable def Leap.predict (dt : ℝ) (M L : V → W) (s : Leap V W) : Leap V W :=
  let rhs := (1 / 2 - 2 * lfγ) • M s.old + (1 / 2 + 2 * lfγ) • M s.sol
    + (1 - 2 * lfγ) • (dt • L s.sol)
  { sol := s.minv rhs, old := s.sol, msolOld := M s.sol, rhs := rhs, minv := s.minv }

/-- `eval_rhs`, timeintegrator.py:570-573. -/
def Leap.evalRhs (dt : ℝ) (L : V → W) (s : Leap V W) : Leap V W := { s with rhs := dt • L s.sol }

/-- `correct`, timeintegrator.py:576-596: `Minv'` solves with the mass operator of the mesh on which
`correct` is called. -/
def Leap.correct (Minv' : W → V) (s : Leap V W) : Leap V W :=
  { s with rhs := s.rhs + s.msolOld, sol := Minv' (s.rhs + s.msolOld), minv := Minv' }

/-- `advance`, timeintegrator.py:599-606, with the mesh change made explicit. -/
noncomputable def Leap.advance (dt : ℝ) (M L Lhalf : V → W) (Minv' : W → V)
    (s : Leap V W) : Leap V W :=
  ((s.predict dt M L).evalRhs dt Lhalf).correct Minv'

/-- The solver returns the zero of the residual whenever there is exactly one. -/
def RootFinder (root : (V → V) → V) : Prop :=
  ∀ G : V → V, (∃! x, G x = 0) → G (root G) = 0

end Integrators

end Verif.RK
