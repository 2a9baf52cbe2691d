# Design of the formal model of thetis

The model is a set of small total Lean functions, one per function of the Python
source, plus independent specifications and theorems. Source line citations refer
to `/repo/thetis` at the pinned commit.

Layout: for an area `X`, `lean/Verif/X/Model.lean` holds the transcription (each
definition cites file and lines and says what was simplified), `X/Lemmas.lean`
(when needed) holds helper lemmas and `X/Props.lean` holds the independent
specifications, the property theorems and, beside each of them, an `example`
showing that its hypotheses can be met by a non-trivial case. Where the code
violates the property the negation is proved on a concrete witness
(suffix `_violated`) and the strongest true part keeps the suffix `_partial`.

## Trusted base

* Lean 4.33.0 kernel; axioms `propext`, `Classical.choice`, `Quot.sound` only
  (checked with `#print axioms`); Mathlib as installed.
* The transcription from Python to Lean is by hand. Simplifications common to all
  modules:
  * floating point numbers are modelled by exact ordered fields (`ℚ` or `ℝ`);
    rounding, overflow and NaN are outside the model (exception: C52 uses binary64 rounding);
  * Firedrake function spaces are modelled by vector spaces (modules over a field),
    forms by maps into them, `assemble`/`solve` by the exact solution map given as a
    parameter or as a hypothesis that the equation holds;
  * pointwise field algebra (UFL expressions, `dat.data` numpy expressions) is
    modelled at a single point/node; fields are functions from nodes to values;
  * Python exceptions are values of `Except`; Python dictionaries are association
    lists or functions with explicit insertion order where order is observable;
  * MPI: collective behaviour is modelled as a list of ranks; HDF5/VTK/NetCDF
    libraries are modelled as finite maps from names to contents.
* Library behaviour taken from documentation or published code, not from the
  repository: firedrake's `VertexBasedLimiter` (C49), MPI reductions with a
  non-commutative operation as any bracketing in rank order (C50), the `logging`
  module (C51), CPython `datetime` and binary64 rounding (C52), pyproj as a function
  of a point and numpy masked assignment (C53), pyadjoint callbacks after each
  evaluation and gradient and `get_blocks` in tape order (C55–C57), integrals over a
  vertex-only mesh as sums over its points and scipy `interp1d` bounds (C58),
  `interp1d` going through its points (C156), `ufl.checks.is_ufl_scalar` ignoring free
  indices (C157), `os.makedirs` and the MPI barrier (C158), the tolerances of
  `numpy.isclose` and the steps and the smallest rate of pyadjoint's `taylor_test`
  (C159). Of those for C156–C159 only `os.makedirs` was at hand to check this against.
* Weak forms (C72 and later): an integral is a finite sum over quadrature points with
  nonnegative weights, a function is its value and gradient at these points on each
  side (`lean/Verif/Dg`). UFL's `avg`, `jump`, `grad` and product rule are transcribed.
  Where the divergence theorem is needed, exactness of the quadrature for the product
  in question is a hypothesis; `Dg/Props.lean` proves it for quadratics on two triangles.
* Not modelled: Firedrake, PETSc, UFL form compilation, pyadjoint, matplotlib,
  uptide, pyproj, and how point values depend on degrees of freedom.

## Testing the theorems

`seeded/LOG.jsonl` records wrong programs: each line is an edit of one model
definition made in a scratch copy, the claim it breaks, the theorems that failed to
check and, where none did, the theorems added to the property files so that they do.
"Failed" means that the theorem, with its proof unchanged, is no longer accepted; it
was not shown in each case that the statement itself is false for the edited
definition, and some proofs break for edits their statement would survive. Lines with
a note that they are repairs edit a definition so that a recorded defect disappears;
they test the `_violated` theorems only. Lines with the note that the edit survives are
open: no theorem tells the edited definition apart, and none was added for it.

## Plan per property

| id | what is modelled | how it is proved |
|----|------------------|------------------|
| C01 | `create_iterator`/`iterate` loop as a fuel-free recursion on a state (iteration, t, next export, i_export) plus step relation | invariant `t = t0 + k*dt` by induction; termination from Archimedean; stop window |
| C02 | same loop with export events | invariants over the loop; characterisation of the j-th export as first grid time past `t0+jT-eps` |
| C03 | `load_state` + loop + exporter indices | commuting of load after run-to-export with continuing; witness for missing time stamp |
| C04 | end time computation with `timedelta(days)` | negation by witness; correct for restart time 0 |
| C05 | `set_time_step` of the 3D solver over ℚ with `Nat.ceil` | field arithmetic |
| C06 | exporters as state machines over a file map; file name with zero padding | injectivity of padded decimal; induction over operation sequences |
| C07 | `export` with fallback on TypeError as effectful function on write log | exactly-once under no error; witness for the double export |
| C08 | `DiagnosticHDF5` | refinement to list of rows by induction over pushes |
| C09 | `CallbackManager` | induction over registration sequences, sorted permutation |
| C10 | `start_time or -inf` semantics with Python truthiness | decision theorem for non-zero bounds, witnesses for 0 |
| C11 | stateful callbacks | induction over observation list |
| C12 | `_values_per_field`, zero-padded names | round trip by induction; order isomorphism of padded names |
| C13 | create/append mode of the file in 2D and 3D restarts | 3D theorem; 2D negation |
| C14 | turbine accumulation, time-integral accumulation | induction over steps |
| C15 | interpolator with cache | invariant cache ⊆ {prev,next}, correctness for every history |
| C16 | search in one file and over files | spec = last stored time ≤ t in the flattened sorted list |
| C17 | attribute scan in file order | theorem for unique matches; negation witness for precedence |
| C18 | daily file search | as C16 on one list |
| C19 | barycentric weights | linear algebra over a field |
| C20 | conversion algorithm for arbitrary stage number | triangular inverse, equality of stage recursions by strong induction |
| C21 | tableaux over ℝ with √ | order conditions by `nlinarith/field_simp`, for rationals `norm_num` |
| C22 | both DIRK forms over a module with abstract residual | induction over stages |
| C23 | IMEX stage recursion | induction over stages, permutation of term lists |
| C24 | stability functions from the tableaux | real inequalities |
| C25 | theta scheme in an inner product space | energy identity |
| C26 | SSPRK22ALE and LeapFrogAM3 with mass operators | linear functional identities |
| C27 | Shu–Osher steps as convex combinations | `Convex` membership |
| C28 | each integrator as state machine with private copies | theorem / negation |
| C29 | coupled step as event list | induction on lists of systems and Picard count |
| C30 | attribute access that fails | negation by witness, positive for the default |
| C31 | depth average as linear functional, ALE map | algebra |
| C32 | frozen state machine with nested calls and exceptions | invariant; negation for exceptions |
| C33 | validators on assignment sequences | induction |
| C34 | paired option state machine | invariant by induction; order dependence witness |
| C35 | options registry | invariant by induction, atomicity; witness |
| C36 | loop over equations with failing setter | witness, success theorem |
| C37 | depth formula over ℝ | `Real.sqrt` inequalities |
| C38 | wind stress over ℝ² | inequalities incl. sixth-degree polynomial |
| C39 | per-node lookup | list induction; witness |
| C40 | recursive table | induction over tables; witness at right end |
| C41 | constraint vectors and Jacobian | counting, `HasDerivAt` |
| C42 | pointwise limiting sequence of `postprocess` with real powers | order theory; the psi limit via monotonicity of `rpow` |
| C43 | backward Euler step of both equations on any finite set of P0 cells with two-point diffusion | discrete minimum principle; existence and uniqueness from injectivity |
| C44 | rational function identities | `field_simp; ring` |
| C45 | closure over ℝ | monotonicity |
| C46 | sediment model, exchange and Exner source at a point (Sediment) | algebra; integrals by derivative |
| C47 | slide coefficient, cell and facet integrands | arctan/cos bounds |
| C48 | CorrectiveVelocityFactor over ℝ | integrals by derivative, bounds on log 30 |
| C49 | VertexBasedP1DGLimiter over ℝ on any mesh, base class from firedrake trusted | induction over cells and facets, real inequalities |
| C50 | select_and_move_detectors, cells split over processes, any reduction bracketing | lexicographic minimum is associative; concrete counterexamples |
| C51 | log.py handlers, buffer, files as a state machine | induction over programs; concrete counterexamples |
| C52 | datetime in integer microseconds, binary64 rounding | rounding error bounds; concrete counterexamples |
| C53 | coordsys.py, transformation as a function, masked arrays as lists | trigonometry, arg of complex numbers, induction over lists |
| C54 | utility.py extrude_mesh_sigma, kernel at one column of nodes, reals | closed form of the layer index, monotonicity of real powers |
| C55 | inversion_tools.py controls, slices and progress as a state machine over evaluations, gradients, accepted steps and restarts | induction over calls and events |
| C56 | inversion_tools.py cost function, calculators with an abstract quadrature | induction over calls; algebra |
| C57 | inversion_tools.py collect_time_series inside the same state machine, tape as a list of tagged blocks | invariant with finished entries and one in work |
| C58 | inversion_tools.py construct_evaluator and eval_cost_function; interpolation of a series is a partial function | first minimum of distances; sums over permutations |
| C59 | optimisation.py OptimisationCallback, OptimisationCallbackList and the recording callbacks; a callback body is an arbitrary state change that may raise | induction over nested lists against a big-step specification |
| C60 | equation.py Equation; a term is an arbitrary value with a class name | specification by last registration of each name; induction over histories |
| C61 | assembledschur.py; real matrices, arbitrary inner solver with a converged reason | matrix algebra over all block sizes; counterexample with a (0,0) block that is not the mass matrix |
| C62 | thrust, power and density formulas | real analysis and induction over turbine lists; integral of the density by change of variables, its value enclosed by monotone sums |
| C63 | construction table of the 2D integrator and its advance | case analysis and induction over tracers |
| C64 | limiters and rational functions with the published constants | closed form of the minimum, polynomial inequalities on a half line |
| C65 | coefficient maps of three classes | `field_simp; ring`; witness for Cheng |
| C66 | name table | case analysis; witness |
| C67 | get_bedload_term at a point; ExnerBedloadTerm over quadrature points | algebra, induction over boundaries |
| C68 | stored fields as a record; update as assignments, AttributeError as none | case split over switches, induction over histories |
| C69 | timeintegrator.py create_fields_old, update_fields_old and the steps of ForwardEuler and CrankNicolson; Function and Constant objects in a heap, expressions as functions of it | heap invariant; induction over steps; counterexamples |
| C70 | optimisation.py export managers with the exporter loop of exporter.py; a function is a name, a space and a value | dictionaries with distinct keys; induction over calls; counterexamples |
| C71 | exporter.py ExportManager constructor and add_export with shared dictionary objects | separation of dictionary objects; counterexample for the shared default |
| C72 | HorizontalAdvectionTerm as quadrature sums, uniform tracer | divergence theorem as hypothesis, algebra |
| C73 | HorizontalAdvectionTerm tested with the tracer | upwind identity at each facet point, sums |
| C74 | ConservativeHorizontalAdvectionTerm and sources | facet flux independent of the test function, boundary case analysis |
| C75 | HorizontalDiffusionTerm (interior penalty) | Young's inequality at facet points; trace bound for linear elements by Cauchy-Schwarz |
| C76 | Volume budget of the 2D model | `Swe/Model.lean` transcribes all terms of shallowwater_eq.py as quadrature sums. `Swe/Props.lean`: cellwise tests give one flux per facet; the constant test gives the total; `C76_mass` links the mass term to the volume. |
| C77 | Lake at rest | `Swe/Props2.lean`: all terms vanish; the pressure term needs the divergence theorem for the constant head times the test function (hypothesis `DivExact`). |
| C78 | Energy of gravity waves | `Swe/Props2.lean`: test functions u and eta; jump losses are a sum of squares. |
| C79 | Friction, Coriolis, stresses | `Swe/Props3.lean`: pointwise signs of the integrands. |
| C80 | Momentum advection | `Swe/Props3.lean`: `advection_eq` integrates back with `DivExact`; sign of the facet terms. |
| C81 | Boundary dictionaries | `Swe/Props4.lean`: dictionaries are lists of entries in order; induction over the list and case tables. |
| C82 | Horizontal viscosity | `Swe/Props5.lean`: facet terms by Young's inequality and a trace bound, which is proved for linear velocities; the depth term tested with the depth times a constant vector. |
| C83 | Tracer and free surface consistency | `Swe/Props6.lean`: combines the models of both equations. |
| C84 | Budget of sediment in water and bed over a step | `Morph/Props.lean`: weak forms as quadrature sums, tested with the constant one; flow terms from C74/C75 (`Tracer2`), boundary loop of the bedload from `Sediment`; violations as steps with uniform fields on any mesh. |
| C85 | Vertical velocity | `Ext/Props.lean`: weak forms on extruded meshes (`Ext/Model.lean`); the equation brought to one side (`solves_iff`) and tested with cell and column indicators; consistency by the divergence theorem. |
| C86 | Uniform 3D tracer | `Tracer3/Props.lean`: the advection terms of a constant are the vertical velocity equation; the mesh term is the rate of change of volume by the divergence theorem. |
| C87 | Mass and variance of 3D tracers | `Tracer3/Props2.lean`: test functions one and the tracer itself; the vertical velocity equation replaces the divergence theorem. |
| C88 | Diffusion of 3D tracers | `Tracer3/Props3.lean`: interior penalty terms bounded facet by facet (`penalty`); flux through a sloping bottom computed in the tank of `Ext/Tank.lean`. |
| C89 | Advection of 3D momentum | `Mom3/Props.lean`: each component is advected like a tracer (`hAdvection_eq`, `vAdvection_eq`), so `Tracer3` applies; the wall stabilisation is added. The surface term exchanges the roles of uv and uv_old, which matters only if they differ. |
| C90 | Viscosity, friction, Coriolis force, wind in 3D | `Mom3/Props2.lean`: viscosity is diffusion of the components (`vViscosity_eq`, `hViscosity_eq`); the zero of the drag denominator by the intermediate value theorem. `Mom3/Props3.lean`: integrals of the logarithmic profile and its linear fit. |
| C91 | Internal pressure gradient | `Mom3/Props4.lean`: divergence theorem as hypothesis (`DivExact`), jumps of products split into averages. |
| C92 | Vertical integrals, baroclinic head | `Column/Props.lean`: divergence theorem for the field with only a vertical component (`divExact_upwards`); testing with the solution itself gives the sum of squared jumps. `Column/Props2.lean`: sign of the boundary value, average, head, stretching, a tank of two layers. |
| C93 | Equations of state, density solvers | `Eos/Props.lean`: with t the square root of salinity numerator and denominator are polynomials; signs of polynomials in temperature from products of (x-l) and (r-x). `Eos/Props2.lean`: check values by bounds of the square root, linear equation, nodal solvers. The check values are quoted from the article and were not available as a file. |
| C94 | Smagorinsky viscosity | `Smag/Props.lean`: divergence theorem for one component; the missing facets are named (`through`); rotation invariance by algebra. |
| C95 | Copies between 2D and 3D | `Layers/Props.lean`: memory with undefined contents, kernels as lists of assignments; a loop in which all cells write values of one field leaves that field (`loop_value`); node maps of discontinuous and continuous spaces satisfy the hypotheses (`C95_dg_above`, …). |
| C96 | Momentum exchange of the modes | `Split/Props.lean`: the statements of `advance` on the fields of a column with arbitrary tendencies; depth averages are linear, the budget is an identity; induction over steps. |
| C97 | Mesh consistency metric | `Layers/Props.lean`: maxima and minima by folds from ∓1e20 as in the kernel; the metric is divided by the height at the node. |
| C98 | Assignment of processes to integrators | `Alloc/Props.lean`: options as Booleans, entries of the field dictionaries as presence flags, early returns of the terms as activity; case analysis over all options. |
| C99 | Element size, angles, widths, anisotropic size | `Geo/Props.lean`, `Geo/Props2.lean`: projection as a linear system with exact mass matrix of linear elements; law of cosines of Mathlib for the angles; quadratic forms for the stretching. |
| C100 | Automatic time steps | `Geo/Props3.lean`: minima over lists of lists (processes); projection of element size over wave speed with an arbitrary quadrature rule exact for products of linear functions. |
| C101 | Beta plane | `Geo/Props2.lean`: Taylor bound of the sine from its derivative. |
| C102 | Non-hydrostatic pressure step | `NonHyd/Props.lean`: the form of the solver equals the weak continuity equation of the corrected velocities, term by term at each quadrature point. |
| C103 | Recovery of vorticity and Hessians | `Diag/Props.lean`: integration by parts on the mesh turns the right hand sides of the forms into projections; uniqueness from positivity of the mass matrix. |
| C104 | Error indicators add up to the estimate | `Diag/Props2.lean`: testing with the indicator functions of cells; sums over cells and points exchanged. |
| C105 | Kinetic energy | `Diag/Props2.lean`: pointwise algebra; for the projection a flow whose projected energy is computed in closed form. |
| C106 | Pressure projection scheme | `Picard/Props.lean`: the two forms are added, implicit terms at the intermediate velocity cancel; induction over iterations. |
| C107 | Time levels of forcings | `Picard/Props.lean`: closed form of the solution after n steps for forcings linear in time, by induction. |
| C108 | Stations, profiles and transects | `Probe/Props.lean`: strings as lists of characters (unique splitting at the last underscore), convex combinations, index arithmetic of row-major arrays. |
| C109 | Heights of ROMS levels | `Source/Props.lean`: monotonicity of the stretching in both coordinates; case split on first, inner and last level. |
| C110 | Source points and their data | `Source/Props.lean`: boolean indexing, tiling and raveling as list functions; membership in the sets of nodes; nearest node as a relation, so that ties of the search tree are open. |
| C111 | Variables, fields and forecast times | `Source/Props.lean`: list lookup by first index (with the aliased list of names), truncation of the number of steps. |
| C112 | SUPG stabilisation of tracers | `Supg/Props.lean`: weak form of the advection of a continuous tracer for every test function (`advection_smooth`), on top of the tracer terms of `Tracer2`; two triangles as counterexamples. |
| C113 | Diagnostic fields are up to date | `Start/Props.lean`: fields and solvers are arbitrary types and functions, the order of the calls is that of the code; the limits of the closure are idempotent (`Start/Props2.lean`). |
| C114 | Initial velocity of a 3D run | `Start/Props2.lean` on the momentum budget of `Split` (C96). |
| C115 | Restart of a 3D simulation | `Start/Props.lean`: `restarted_eq` gives every field after a restart; `Start/Props2.lean`: loss of momentum in a column. |
| C116 | Frequencies on a moving mesh | `Start/Props2.lean`: column of prisms with fields linear in the layers. |
| C117 | Initial conditions and restart in 2D | `Solver2/Props.lean`: fields of arbitrary types, labels as strings. |
| C118 | Boundary conditions of tracers | `Solver2/Props.lean`: look-up in `bnd_functions` by strings. |
| C119 | Several solvers in a process | `Solver2/Props.lean`: the table `field_metadata` as a list of names. |
| C120 | Turbines in a sheared current | `Rotor/Props.lean` over the reals: Jensen's inequality for the average, the integral of the profile, and the balance of power and drag. |
| C121 | Turbine definition files | `Rotor/Props.lean`: files as records of optional entries, errors as `none`. |
| C122 | Logarithmic layer of the two-equation closure | `Wall/Props.lean` on the closure of `Turb`, over the reals: derivatives of the profile of psi, the root of `compute_cmu0` within the shear limit, balance iff the Schmidt number is the computed one. |
| C123 | Every time integrator keeps the budget of totals | `RK/Props6.lean`: per step the total changes by the weighted totals of the tendencies (`Budget`), added over the run (`Accounts`); solvers leave at most `tol` of the total of a stage equation; steady states by induction over stages. |
| C124 | Reported mass of a depth-averaged tracer | `Mass2/`: tracer form tested with the depth plus free surface form tested with the tracer; the divergence theorem for tracer times depth times velocity leaves the facet term `facetDefect`, the Lax-Friedrichs part and the boundary. |
| C125 | Explicit advection with the slope limiter creates no new extrema | `Bound2/`: the advection form tested with the indicator of a cell; the mean is split over the quadrature points of the cell, so that the new mean is a combination of old values with weights that are non-negative within the limit of the time step; then `C49_bounds`. |
| C126 | Water volume over time steps with wetting and drying | `WetDry/`: the forms of the integrators tested with the constant 1, with the mass term and budget of `Swe/`; `ksponly` as the vanishing of the linearised form, with the derivative of the mass term computed and the depth above its tangent (Cauchy-Schwarz). |
| C127 | Implicit time steps do not create energy | `Contract/`: one step of each integrator as a relation in weak form over a function space, tested with depth times velocity and gravity times elevation; algebraic stability for tables, sums of squares for `DIRK22`, `DIRK33`, `DIRK43` and the implicit `UM2` tables (each stage rewritten as a chain of tendencies); the two forms of stiffly accurate tables agree (`C127_forms`); powers of the terms from C78, C79, C82, C73, C75, C88; linearity of the forms; solvability by injectivity. |
| C128 | Explicit time steps below the CFL limit do not create energy | `Explicit/`: one step of each integrator as a relation in weak form; every scheme is a polynomial of the tendency, whose energy is a sum of powers of the equation and squares; the limit exists by boundedness of forms in finite dimension; inertial motion as the exact counterexample. |
| C129 | Time integrators converge with their order | `Converge/`: one step at a time, with the fields and boundary values at the times of `update_forcings`; local error by Taylor's formula, Lipschitz bound and discrete Gronwall in a normed space; the weak form on a function space of finite dimension is such a space by the Riesz representation; for linear equations the solution exists and is smooth, being the flow of a matrix. |
| C130 | Implicit-explicit methods converge with the order of their pair of tables | `Imex/`: one step stage by stage, with `solution` and `solution_old` of both integrators as `IMEXGeneric.solve_stage` assigns them; local error by Taylor's formula with the coupling conditions of both tables, and Gronwall, in a normed space; transferred to weak forms as for C129; an exact run with quadratic drag on a periodic cell for the violation. |
| C131 | A uniform tracer stays uniform over coupled 3D runs on a moving mesh | `Ale/`: `advance` of both coupled integrators in order, on meshes that depend on the elevation; coordinates and mesh velocity from the two kernels; the residual of a constant by C86; the size of cells changes with the mesh velocity of each stage; induction over steps. |
| C132 | The amount of tracer changes over coupled 3D runs only by what enters | `Ale/Props3`: the residual is linear in the test function, so the total of the assembled vectors is the residual for the test function 1, which is C87; mass matrices of the three meshes; induction over steps. |
| C133 | The amount of tracer in a closed basin is constant | `Ale/Props4`: violated by both coupled integrators, shown on a basin of two columns with an inclined, moving surface that meets all hypotheses of C131 and C132; the exact change in a closed basin from C132. |
| C134 | The schemes of the 3D solver converge with second order | `Leap/Props`: SSPRK22ALE as Heun's method for the vector M u (C129); for LeapFrogAM3 the defects of prediction and correction, a two-step recurrence for the error and the first step apart; violated for changing forcings. |
| C135 | Water at rest stays at rest in the 3D solver | `Still/Model`: the complete coupled steps with the 2D mode and its stored tendencies, momentum, tracers, mesh, split residual and pressure gradient; `Still/Props`: every operation keeps the state of rest if the residuals vanish there; `Still/Props2`: the weak forms of all four equations do, with a solver on two example meshes. |
| C136 | The 3D mesh holds the water volume of the 2D mode over coupled runs | `Still/Props3` on the model of `Still/Model`: gain of a stage, its weights in both integrators, the columns of the mesh moved by `kernel_z_coord` with the projected elevation, the continuity equation of `Swe` tested with one; rain on a closed basin as example. |
| C137 | The weak form of the shallow water equations is that of the documented equations | `Strong/Lemmas`, `Strong/Props` on the model of `Swe`: integration by parts with test functions that jump; `accel` is the right hand side of the documented momentum equation; example: the flow (x, -y) on two triangles with all linear test functions. |
| C138 | The weak forms of the tracer equations are those of the documented equations | `Strong/Props2` on the models of `Tracer2` and `Tracer3`, with C88 for the diffusion in 3D; examples on the square and in the tank. |
| C139 | The weak form of the 3D momentum equation is that of the documented equation | `Strong/Props3` on the forms of `Mom3`: components advected like tracers (C138), vertical diffusion with flux through surface and bottom; sheared flow under wind and uniform flow over a sloping bottom as examples. |
| C140 | The equations do not depend on numbering, names of facet sides and axes | `Frame/Model`: descriptions of a mesh (`View`, `View3`), on the forms of `Swe`, `Tracer2`, `Tracer3`, `Mom3`, `Ext`; a turned square with exchanged sides and a mirrored tank as examples. |
| C141 | The equations do not depend on the units of length, time, density and tracer | `Unit/Model`: a change of units (`Conv`) of a mesh and of fields, on the forms of `Swe`, `Tracer2`, `Tracer3`, `Mom3`, `Ext`; metres and seconds to kilometres and hours as example. |
| C142 | Facet terms are left out only where nothing can jump | `Space/Model`: elements of the solvers and `element_continuity`; names of UFL families and their conformity are trusted. Forms of `Tracer2` and `Swe`. |
| C143 | Tracers and linear waves obey superposition | `Linear/`: combinations of fields, coefficients and boundary dictionaries; every term of `Tracer2`, `Tracer3` and `Swe` is linear in them; steps of `Contract` and `Explicit`. Limiter of `Limiter`. |
| C144 | Explicit runs have a finite domain of dependence | `Local/`: points belong to cells, test functions of one cell; terms of `Tracer2` and `Swe`, steps of `Explicit`, limiter of `Limiter`. Spaces are discontinuous (`Broken`), the mass matrix is definite in every cell. |
| C145 | Every time step has exactly one result | `Solve/`: steps of `Contract` and `Explicit`, terms of `Tracer2`, `Tracer3`, `Swe`. A solver is trusted to return a solution of its weak form; here it is shown that there is one, and only one. |
| C146 | Free surface of the non-hydrostatic model | `Surface/`: terms of `Swe`, steps of `Contract`, uniqueness from `Solve`. The hydrostatic step and the Poisson solver are arbitrary relations. Violated: hydrostatic limit for linearised equations with open boundaries. |
| C147 | The weak forms of suspended sediment and bed are those of the documented equations | `Strong/Props4` on the residuals of `Morph`: integration by parts as in C137 and C138; the concentration is given by the form of the equation. Violated: factor of depth of the documented source in the conservative form; slide without `morfac/(1-porosity)`. |
| C148 | Errors of solvers, initial values and forcing do not grow; they add up at most | `Accum/Model` (steps with residuals), `Accum/Props` (the difference of two runs solves the equation without forcing, by C143; tested with `theta new + (1-theta) old` its energy grows by the residual at most, by Cauchy's inequality), `Accum/Props2` (waves, tracers, errors of sources). |
| C149 | The errors of runs are bounded by the initial tendencies, whatever the mesh | `Accum/Props3`: the solution in continuous time is a run with residuals given by the trapezoidal rule, and C148 adds them up; it exists (exponential of the tendency) and its derivatives solve the same equation, so their energy does not grow. |
| C150 | Time series are read along the dimension of time | `Reader`: state machine of the reader (remembered position and number of dimensions), arrays as shape and values; invariant over all sequences of calls. Violated when a later file has the dimensions in another order. |
| C151 | Projection of a field restricted to a subdomain | `Project`: functions by values at quadrature points; existence and uniqueness by definiteness of the mass matrix, the other parts by choice of test functions. |
| C152 | The implicit vertical step of the 3D momentum equation | `Vert`: `MomentumEquation` of `Mom3` with the options of `vertmomentum` and the fields of `mom_impl`, in a step of `BackwardEuler` (`Contract.TendencyStep`). Unique result from C145, the rest by choice of test functions and from C90. |
| C153 | Daily files are dated from their names | `Daily`: patterns as lists of characters and tags, zero-padded decimals, the fixed-length regular expression, `findall`, `dict(zip())`, `glob` as a relation, validity of dates; round trip by induction over the pattern. Violated for names of another length. |
| C154 | Fields of a solver are checked, named and found under one name | `FieldDict`: the dictionary that is its own `__dict__`, names of objects, assignments, deletions and `update` as a step relation; invariants by induction over sequences; `add_new_field` with `field_metadata`. Violated for `update` and for Functions under two keys. |
| C155 | The time step of the 3D solver reaches all its integrators | `Setdt`: `set_dt` with the tolerance of `isclose`, composed with `set_time_step` (C05) and the loop over integrators (C29). Violated for steps of the 2D mode of their own. |
| C156 | Time series written by a run are the observations an inversion reads | `Twin`: a directory of files, callbacks that create their file at the first evaluation and append rows, the reader; invariant over all sequences of evaluations, names of files from C108. Violated for spaces and for several fields. The misfit of the true controls goes through the cost function of C58, with the projection and the interpolation in time as parameters; it is positive if the projection changes the field at a station. |
| C157 | Options that are fields, dates or solver parameters hold what the solver needs | `FieldOpt`: objects by class, shape, free indices and time zone, the six trait classes, assignments and updates; invariant over all histories. Violated for the shape of vectors, constants and coefficients and for free indices. `is_ufl_scalar` is taken from the documentation of UFL. |
| C158 | Output directories exist before any process goes on | `Directory`: file systems as maps from paths, process 0 and n others as small steps with a barrier, other programs as steps that only add; invariants over all schedules and a bound on the steps. Violated for files in the way and for races with other programs. `os.makedirs` and the barrier of MPI are taken from their documentation; no links or access rights. |
| C159 | Tests of inversions pass for right gradients and fail for wrong ones | `GradTest`: residuals, rates and verdict over the reals for any functional and linear gradient. Violated for other directions, zero controls, linear functionals and small values. `numpy.isclose` and `taylor_test` of pyadjoint are taken from their documentation. |

No property is considered inexpressible. Parts of a property that rely on code
outside the model (for instance the limiter kernel inside Firedrake in C49) are
stated as explicit hypotheses and the claim is marked `partial`.
