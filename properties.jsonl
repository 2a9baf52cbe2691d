{"id": "C01", "title": "Time loop visits the regular time grid and stops in the right window", "statement": "Running the 2D or 3D solver performs finitely many steps; after k steps the simulation time is exactly start + k*dt and the iteration counter has grown by k; a step is taken from time t exactly when t <= end - 1e-5, so the run ends at the first grid time later than end - 1e-5 (hence later than the end time by at most dt - 1e-5).", "quantifier": "all start times, end times, positive steps dt and any number of steps", "why_tests_cant": "needs every (start, end, dt) triple including end times that are not a multiple of dt; a test fixes a handful", "anchors": ["thetis/solver2d.py: FlowSolver2d.create_iterator", "thetis/solver.py: FlowSolver.iterate"]}
{"id": "C02", "title": "Export schedule: one export per export interval, consecutive indices", "statement": "During a run export indices increase by exactly one per export and at most one export happens per step. If dt does not exceed the export interval T, the j-th export happens at the first step time that is >= start + j*T - 1e-5, so no interval is skipped or exported twice. If dt > T the schedule falls behind: the number of exports equals the number of steps.", "quantifier": "all dt, T, start times and run lengths", "why_tests_cant": "the drift between the step grid and the export grid only shows for particular ratios after many steps", "anchors": ["thetis/solver2d.py: FlowSolver2d.create_iterator", "thetis/solver.py: FlowSolver.iterate"]}
{"id": "C03", "title": "Restart continues the uninterrupted run", "statement": "Stopping a run after any export i and resuming in a new solver with load_state(i) yields the same later sequence of (iteration, time, export index) and the same numbered output files as the run that was never stopped, when the export interval is an integer number of steps. A checkpoint without a stored time falls back to iteration*dt.", "quantifier": "all export indices, dt, numbers of steps per export and later run lengths", "why_tests_cant": "the equality must hold at every possible stop point", "anchors": ["thetis/solver2d.py: FlowSolver2d.load_state, create_iterator", "thetis/solver.py: FlowSolver.load_state, iterate", "thetis/exporter.py: HDF5Exporter.load, ExportManager.set_next_export_ix"]}
{"id": "C04", "title": "End date is honoured on restart", "statement": "When initial and end dates are set, the run stops at the end date (within one step) no matter at which simulation time it was (re)started.", "quantifier": "all initial dates, end dates and restart times", "why_tests_cant": "only a restart at non-zero time with dates set can reveal a unit mistake", "anchors": ["thetis/solver2d.py: FlowSolver2d.create_iterator", "thetis/solver.py: FlowSolver.iterate"]}
{"id": "C05", "title": "3D time step is fitted to the export interval", "statement": "The 3D solver's final time step never exceeds the requested (or CFL-limited) step, is positive, and divides the export interval exactly; in split mode the 2D step divides the 3D step and does not exceed the 2D limit.", "quantifier": "all positive steps and export intervals", "why_tests_cant": "rounding behaviour must be right for every ratio", "anchors": ["thetis/solver.py: FlowSolver.set_time_step"]}
{"id": "C06", "title": "Numbered checkpoint files: no overwrites, and what is loaded is what was stored", "statement": "Starting from index s, the n-th HDF5 export of a field goes to the file of index s+n; different indices give different file names; loading index i returns the values and time stamp of the last export made with that index; all fields of one export manager always share the same next index, also after resetting it.", "quantifier": "all start indices, export counts, interleavings of export/reset and all indices (also beyond 5 digits)", "why_tests_cant": "file name collisions and index drift appear only after particular histories", "anchors": ["thetis/exporter.py: HDF5Exporter, ExportManager"]}
{"id": "C07", "title": "One export call writes every field once", "statement": "A call to the solver's export writes each requested field of each exporter exactly once and advances all its indices by one, also when a field writer does not accept a time argument.", "quantifier": "all lists of fields and all per-field outcomes", "why_tests_cant": "depends on which field raises which error", "anchors": ["thetis/solver2d.py: FlowSolver2d.export", "thetis/solver.py: FlowSolver.export", "thetis/exporter.py: ExportManager.export"]}
{"id": "C08", "title": "Diagnostic HDF5 file behaves like a growing table", "statement": "After any sequence of pushes, the diagnostics file equals the abstract table obtained by appending rows (no index, or index equal to the row count) and replacing rows (smaller index); a larger index is refused; all datasets including time always have equal length.", "quantifier": "all sequences of pushes with and without index", "why_tests_cant": "history dependent; needs induction over pushes", "anchors": ["thetis/callback.py: DiagnosticHDF5"]}
{"id": "C09", "title": "Callbacks are evaluated exactly once, in name order", "statement": "Evaluating an interval evaluates each callback registered for that interval exactly once, in increasing name order, and none of another interval; registering a second callback of the same name replaces the first.", "quantifier": "all registration sequences", "why_tests_cant": "order and replacement depend on the history", "anchors": ["thetis/callback.py: CallbackManager"]}
{"id": "C10", "title": "Callback time window", "statement": "A diagnostic callback with a start and end time records a value at time t exactly when start <= t <= end.", "quantifier": "all windows (including bounds equal to zero) and times", "why_tests_cant": "the exceptional bound 0 is easily missed", "anchors": ["thetis/callback.py: DiagnosticCallback.__init__, evaluate"]}
{"id": "C11", "title": "Conservation and overshoot diagnostics", "statement": "The conservation callback's relative change is zero on the first evaluation and equals (current - first)/first later; the overshoot callback reports overshoot >= 0 and undershoot <= 0, both zero exactly when the field stays within its initial range.", "quantifier": "all sequences of observed values", "why_tests_cant": "history dependent", "anchors": ["thetis/callback.py: ScalarConservationCallback, MinMaxConservationCallback"]}
{"id": "C12", "title": "Detector values are regrouped without loss", "statement": "For any list of fields with their component counts, splitting the flat per-detector record gives back each field's components in order; every value belongs to exactly one field; zero-padded detector names are distinct and sort in detector order.", "quantifier": "all lists of dimensions and numbers of detectors", "why_tests_cant": "needs all dimension lists and detector counts", "anchors": ["thetis/callback.py: DetectorsCallback"]}
{"id": "C13", "title": "Restart keeps earlier diagnostics", "statement": "When a simulation is continued from a stored state, diagnostic rows written before the restart remain in the diagnostics file.", "quantifier": "all numbers of rows before and after the restart", "why_tests_cant": "needs a crash/restart history", "anchors": ["thetis/solver2d.py: FlowSolver2d.load_state, create_iterator", "thetis/solver.py: FlowSolver.load_state, iterate", "thetis/callback.py: DiagnosticCallback"]}
{"id": "C14", "title": "Time integrals and averages reported by callbacks", "statement": "After n time steps the turbine callback's average power times the elapsed period equals the sum of power*dt over all steps, and the profit equals average power minus the break-even power times number of turbines, for every farm; a time-integral callback reports the sum of its integrand over the evaluated steps weighted by dt.", "quantifier": "all numbers of steps, farms and power histories", "why_tests_cant": "history dependent accumulation", "anchors": ["thetis/turbines.py: TurbineFunctionalCallback", "thetis/callback.py: AccumulatorCallback"]}
{"id": "C15", "title": "Linear time interpolation is exact, local and history independent", "statement": "Interpolating a stored time series at time t returns the straight-line value between the two neighbouring stored times, equals the stored value at stored times, lies between the neighbouring values, and does not depend on earlier queries; at most two time levels are cached.", "quantifier": "all time series, query times and query histories", "why_tests_cant": "the cache makes results depend on history unless it is correct", "anchors": ["thetis/interpolation.py: LinearTimeInterpolator"]}
{"id": "C16", "title": "Time search brackets the query over many files", "statement": "For files whose time ranges do not overlap, searching a time returns, up to the search tolerance of 1e-6 s, the last stored time not after it (previous) or the first stored time after it (next) over all files, whatever the order in which the files are listed, and raises an error exactly when no such time is stored.", "quantifier": "all families of files and query times", "why_tests_cant": "file boundaries are where off-by-one mistakes hide", "anchors": ["thetis/interpolation.py: NetCDFTimeParser.find_time_stamp, NetCDFTimeSearch"]}
{"id": "C17", "title": "NetCDF variable lookup precedence", "statement": "Looking up a variable by standard name, long name and variable name returns the variable that matches the most specific criterion available: a match by standard name takes precedence over a match by long name, which takes precedence over a match by variable name.", "quantifier": "all collections of variables", "why_tests_cant": "depends on the order of the variables in the file", "anchors": ["thetis/interpolation.py: get_ncvar_name"]}
{"id": "C18", "title": "Daily file search", "statement": "Among files stamped with dates, the search returns, up to a tolerance of 1e-6 s, the newest file not after the requested time (or the oldest file after it for 'next') and fails if there is none.", "quantifier": "all sets of dated files and requested times", "why_tests_cant": "boundary times equal to file stamps", "anchors": ["thetis/interpolation.py: DailyFileTimeSearch"]}
{"id": "C19", "title": "Spatial interpolation weights", "statement": "Interpolating from a triangulated source grid reproduces constant and linear fields exactly and never exceeds the range of the source values inside the grid.", "quantifier": "all source triangles, target points and source values", "why_tests_cant": "needs all geometries", "anchors": ["thetis/interpolation.py: GridInterpolator"]}
{"id": "C20", "title": "Shu-Osher form equals the Butcher form", "statement": "For every explicit Runge-Kutta tableau whose Shu-Osher conversion is defined, advancing with the converted coefficients yields the same solution as the Butcher form, for every right-hand side.", "quantifier": "all tableaux of any number of stages, all right-hand sides and states", "why_tests_cant": "tests only cover the shipped three-stage scheme", "anchors": ["thetis/rungekutta.py: butcher_to_shuosher_form, ERKGenericShuOsher, ERKGeneric"]}
{"id": "C21", "title": "Shipped Runge-Kutta tableaux are consistent and of the advertised order", "statement": "Every shipped tableau has row sums equal to its nodes and weights summing to one, is lower triangular, and satisfies the order conditions of the order its documentation states.", "quantifier": "all shipped tableaux", "why_tests_cant": "convergence tests only estimate the order", "anchors": ["thetis/rungekutta.py: scheme classes"]}
{"id": "C22", "title": "Solution-form and tendency-form implicit Runge-Kutta agree", "statement": "For a stiffly accurate diagonally implicit scheme, the solution-update form and the tendency form give the same new solution.", "quantifier": "all stiffly accurate tableaux of any number of stages and all linear or nonlinear residuals whose stage equations have unique solutions", "why_tests_cant": "must hold for all operators", "anchors": ["thetis/rungekutta.py: DIRKGeneric, DIRKGenericUForm"]}
{"id": "C23", "title": "Implicit-explicit integrator equals the additive Runge-Kutta method", "statement": "The coupled implicit/explicit integrator's step equals the textbook additive Runge-Kutta method with the two tableaux; every term of the equation labelled implicit, explicit or source is used exactly once.", "quantifier": "all pairs of tableaux with the same number of stages and all right-hand sides", "why_tests_cant": "must hold for all operators", "anchors": ["thetis/implicitexplicit.py: IMEXGeneric", "thetis/equation.py: Equation.select_terms"]}
{"id": "C24", "title": "Implicit schemes damp decaying modes", "statement": "For the scalar decay problem y' = -a y with a >= 0 and any time step, the implicit schemes (backward Euler, theta scheme with theta in [0.5,1], implicit midpoint, DIRK22, ESDIRK trapezoid/midpoint) do not amplify the solution; L-stable schemes drive it to zero as a*dt grows.", "quantifier": "all decay rates and time steps", "why_tests_cant": "stability must hold for all step sizes", "anchors": ["thetis/rungekutta.py: BackwardEulerAbstract, DIRK22Abstract, ImplicitMidpointAbstract, CrankNicolsonAbstract", "thetis/timeintegrator.py: CrankNicolson"]}
{"id": "C25", "title": "Theta scheme: steady states, linearity and energy", "statement": "The theta scheme keeps every steady state, does not increase the energy of any dissipative linear problem when theta >= 1/2, conserves it exactly for skew-symmetric problems at theta = 1/2, and over n steps the old value at each step is the previous new value.", "quantifier": "all inner-product spaces, dissipative operators, steps and histories", "why_tests_cant": "must hold for all operators", "anchors": ["thetis/timeintegrator.py: CrankNicolson"]}
{"id": "C26", "title": "Moving-mesh integrators conserve mass and keep constants", "statement": "On a moving mesh the two-stage and leap-frog integrators keep the total tracer mass when the right-hand side has zero total, and leave a constant tracer constant when the mesh motion satisfies the discrete geometric conservation law.", "quantifier": "all mass operators, right-hand sides and steps", "why_tests_cant": "must hold for every mesh motion", "anchors": ["thetis/timeintegrator.py: SSPRK22ALE, LeapFrogAM3"]}
{"id": "C27", "title": "Strong stability preservation", "statement": "If one forward Euler step (with the same dt) keeps the solution in a convex set, so does one SSPRK33 step (and an n-step run).", "quantifier": "all convex sets, right-hand sides and states", "why_tests_cant": "must hold for all sets and operators", "anchors": ["thetis/rungekutta.py: SSPRK33Abstract, ERKGenericShuOsher"]}
{"id": "C28", "title": "Changes made to the solution between steps are kept", "statement": "A change applied to the solution between two steps (limiter, user callback, data assimilation) is the starting point of the next step for every time integrator.", "quantifier": "all integrators, states and external changes", "why_tests_cant": "some integrators hold private copies of the state", "anchors": ["thetis/rungekutta.py: ERKGeneric, ERKGenericShuOsher, DIRKGeneric", "thetis/implicitexplicit.py: IMEXGeneric", "thetis/timeintegrator.py: ForwardEuler, CrankNicolson"]}
{"id": "C29", "title": "Coupled 2D step: every equation advanced once, in the documented order", "statement": "One coupled 2D step advances the shallow water system first, then each tracer system once and limits it right after, then updates the sediment model, advances sediment, then the bed; with p>1 Picard iterations tracers are advanced p times, lagged values are stored only in the first and forcings refreshed only in the last iteration; setting the time step reaches every integrator.", "quantifier": "all configurations, lists of tracer systems and Picard counts", "why_tests_cant": "depends on the configuration", "anchors": ["thetis/coupled_timeintegrator_2d.py: CoupledTimeIntegrator2D, GeneralCoupledTimeIntegrator2D"]}
{"id": "C30", "title": "Non-hydrostatic step works without free-surface update", "statement": "With the non-hydrostatic solver, switching off the free surface update still lets the step complete and leaves the elevation of the hydrostatic stage unchanged.", "quantifier": "all configurations", "why_tests_cant": "configuration dependent", "anchors": ["thetis/coupled_timeintegrator_2d.py: NonHydrostaticTimeIntegrator2D"]}
{"id": "C31", "title": "3D mode splitting keeps the total velocity and the mesh follows the surface", "statement": "Removing the depth average splits the 3D velocity so that deviation plus average equals the original and the deviation has zero depth average; exporting leaves the stored deviation unchanged; the ALE mesh places the bottom at minus the bathymetry, the surface at the elevation, keeps layers ordered while the water depth is positive, and its mesh velocity times dt equals the coordinate displacement over a step (weighted over the two Runge-Kutta stages).", "quantifier": "all velocity columns, elevations, bathymetries and layer positions", "why_tests_cant": "must hold pointwise for all fields", "anchors": ["thetis/coupled_timeintegrator.py: CoupledTimeIntegratorBase, CoupledTwoStageRK", "thetis/utility3d.py: ALEMeshUpdater", "thetis/solver.py: FlowSolver.export"]}
{"id": "C32", "title": "Frozen objects reject unknown attributes", "statement": "Outside unfrozen methods, assigning an attribute that does not exist raises an error and changes nothing, for every call history, also after an unfrozen method raised an exception; nested unfrozen calls re-freeze only when the outermost returns.", "quantifier": "all nested call histories including exceptions", "why_tests_cant": "history dependent", "anchors": ["thetis/utility.py: FrozenClass, unfrozen", "thetis/configuration.py: FrozenHasTraits, FrozenConfigurable"]}
{"id": "C33", "title": "Option values always satisfy their declared range", "statement": "After any sequence of successful or failing assignments, every positive/non-negative/bounded option holds a value within its range, and a failing assignment leaves the value unchanged.", "quantifier": "all assignment sequences and proposed values", "why_tests_cant": "history dependent", "anchors": ["thetis/configuration.py: PositiveInteger, PositiveFloat, NonNegativeInteger, NonNegativeFloat, BoundedInteger, BoundedFloat"]}
{"id": "C34", "title": "Paired options always match the chosen type", "statement": "The options object attached to a choice (time stepper, turbulence model, ...) is always of the class belonging to the current choice; re-selecting the current choice keeps customised values; bulk update from a dictionary gives the same result for every order of its entries.", "quantifier": "all sequences of assignments and all orders of bulk updates", "why_tests_cant": "order dependence", "anchors": ["thetis/configuration.py: attach_paired_options, PairedEnum, OptionsBase.update"]}
{"id": "C35", "title": "Tracer registration is consistent", "statement": "After any sequence of successful tracer and tracer-system registrations each label occurs exactly once in the tracer list and in exactly one solved system; a refused registration changes nothing.", "quantifier": "all registration sequences", "why_tests_cant": "history dependent", "anchors": ["thetis/options.py: ModelOptions2d.add_tracer_2d, add_tracer_system_2d"]}
{"id": "C36", "title": "Changing all time stepper types is all or nothing", "statement": "Setting the time stepper type of all equations either changes all of them or, on an unsupported type, none.", "quantifier": "all type names and prior states", "why_tests_cant": "failure in the middle of the update", "anchors": ["thetis/options.py: ModelOptions2d.set_timestepper_type"]}
{"id": "C37", "title": "Wetting and drying depth is positive and exact in the deep limit", "statement": "With wetting and drying the total depth is positive for every elevation, exceeds both zero and the unmodified depth, is increasing in the elevation with slope in (0,1), differs from the unmodified depth by at most alpha/2 wherever that is non-negative, and tends to it as depth grows; without it the depth equals bathymetry + elevation (or bathymetry in linear mode).", "quantifier": "all bathymetries, elevations and positive alphas", "why_tests_cant": "must hold for all real inputs", "anchors": ["thetis/utility.py: DepthExpression"]}
{"id": "C38", "title": "Wind stress acts along the wind", "statement": "Wind stress is parallel to the wind with non-negative coefficient for every supported formula, zero for zero wind, flips sign with the wind and is rotation equivariant.", "quantifier": "all wind vectors and formulas", "why_tests_cant": "polynomial formulas could turn negative", "anchors": ["thetis/forcing.py: compute_wind_stress"]}
{"id": "C39", "title": "Tidal boundary values outside the tidal database are zero", "statement": "At boundary nodes where the tidal database has no data the elevation and velocity forcing are zero, other nodes get the database value, nodes off the boundary are zero.", "quantifier": "all node sets and lookup outcomes", "why_tests_cant": "partial failures of the lookups", "anchors": ["thetis/forcing.py: TidalBoundaryForcing.set_tidal_field"]}
{"id": "C40", "title": "Tabulated thrust and power curves", "statement": "The tabulated coefficient equals the table entry at every tabulated speed, interpolates linearly in between, stays within the range of the table and zero, and is zero below the first and above the last speed.", "quantifier": "all strictly increasing tables of any length and all speeds", "why_tests_cant": "needs all tables", "anchors": ["thetis/turbines.py: linearly_interpolate_table, TabulatedThrustTurbine"]}
{"id": "C41", "title": "Minimum distance constraints", "statement": "There is one constraint per unordered pair of turbines; all are non-negative exactly when all pairs are at least the minimum distance apart; the Jacobian is the exact derivative with rows in the same order.", "quantifier": "all numbers of turbines and positions", "why_tests_cant": "index bookkeeping for any number of turbines", "anchors": ["thetis/turbines.py: MinimumDistanceConstraints"]}
{"id": "C42", "title": "Turbulence closure keeps its fields in their physical range", "statement": "After every update turbulent kinetic energy, length-scale variable, dissipation, viscosity and diffusivity are at least their minimum values and the length scale obeys the stratification limit, for all states.", "quantifier": "all input states and option flags", "why_tests_cant": "pointwise for all real inputs", "anchors": ["thetis/turbulence.py: GenericLengthScaleModel.postprocess, preprocess"]}
{"id": "C43", "title": "Turbulence source terms keep positivity", "statement": "With the Patankar treatment one implicit step of the source terms keeps kinetic energy and length-scale variable positive for every time step.", "quantifier": "all positive states, sources and time steps", "why_tests_cant": "must hold for all steps", "anchors": ["thetis/turbulence.py: TKESourceTerm, PsiSourceTerm"]}
{"id": "C44", "title": "Stability function identities", "statement": "The analytical steady-state shear number solves the equilibrium equation; von Karman and Schmidt number formulas are inverse; the direct and normalised evaluation of the Canuto/Cheng functions agree; the smooth buoyancy limiter maps values below the critical one strictly between minimum and critical value.", "quantifier": "all coefficients and arguments in the stated range", "why_tests_cant": "algebraic identities over reals", "anchors": ["thetis/stability_functions.py: StabilityFunctionBase, CanutoStabilityFunctionBase, ChengStabilityFunctionBase"]}
{"id": "C45", "title": "Richardson number closure", "statement": "The Pacanowski-Philander viscosity and diffusivity are positive, diffusivity <= viscosity <= maximum viscosity, both non-increasing in stratification and maximal for unstable stratification.", "quantifier": "all shear and buoyancy values", "why_tests_cant": "pointwise for all real inputs", "anchors": ["thetis/turbulence.py: PacanowskiPhilanderModel"]}
{"id": "C46", "title": "Sediment exchange between water and bed balances", "statement": "The volume of sediment entering the water column by erosion minus deposition equals the volume leaving the bed (times (1-porosity), without morphological acceleration), for both depth-averaged and depth-integrated sediment; erosion and the deposition coefficient are non-negative; at the equilibrium concentration they balance.", "quantifier": "all states", "why_tests_cant": "two equations in two files must agree", "anchors": ["thetis/exner_eq.py: ExnerSourceTerm", "thetis/sediment_eq_2d.py: SedimentErosionTerm, SedimentDepositionTerm", "thetis/sediment_model.py: SedimentModel"]}
{"id": "C47", "title": "Sediment slide moves sediment down-slope", "statement": "The slope-failure diffusivity has a single sign (flux down-slope) for every bed slope and time step and vanishes for slopes below the maximum angle.", "quantifier": "all slopes, time steps and acceleration factors", "why_tests_cant": "sign depends on the product of angle and time step", "anchors": ["thetis/sediment_model.py: SedimentModel.get_sediment_slide_term"]}
{"id": "C48", "title": "Velocity correction factor is continuous across its special case", "statement": "The integrals used for the advective velocity correction agree at the special exponent zero with the limit of the general formula; the factor lies in [0,1].", "quantifier": "all reference heights and exponents", "why_tests_cant": "limit argument", "anchors": ["thetis/sediment_model.py: CorrectiveVelocityFactor"]}
{"id": "C49", "title": "Slope limiter keeps means and creates no new extrema", "statement": "The vertex-based limiter keeps each cell mean and leaves every nodal value within the bounds computed from neighbouring cell means (plus boundary facet means on boundaries).", "quantifier": "all meshes and fields", "why_tests_cant": "needs all fields and meshes", "anchors": ["thetis/limiter.py: VertexBasedP1DGLimiter"]}
{"id": "C50", "title": "Detector placement is independent of the parallel partition", "statement": "Which detectors are kept and where they are moved does not depend on how cells are distributed over processes; a detector is kept exactly when it lies in the domain or can be moved no more than the given distance; order is preserved.", "quantifier": "all partitions and detector sets", "why_tests_cant": "cannot test all process counts", "anchors": ["thetis/utility.py: select_and_move_detectors"]}
{"id": "C51", "title": "Log files are complete", "statement": "Messages printed before the log directory is set appear in the log file exactly once and before later ones; setting the same directory again does not truncate; with the append mode (keep_log) the lines of an earlier log are kept; setting up the loggers again loses and repeats no message; only the first process writes.", "quantifier": "all message sequences and directory changes", "why_tests_cant": "history dependent", "anchors": ["thetis/log.py: set_log_directory, set_thetis_loggers", "thetis/solver2d.py: FlowSolver2d keep_log"]}
{"id": "C52", "title": "Epoch conversion is timezone independent and invertible", "statement": "Converting a timezone-aware date to epoch seconds and back gives the same instant; equal instants in different time zones give equal epochs; order is preserved.", "quantifier": "all dates and offsets", "why_tests_cant": "needs all offsets", "anchors": ["thetis/timezone.py: datetime_to_epoch, epoch_to_datetime"]}
{"id": "C53", "title": "Vector rotation between coordinate systems", "statement": "Rotating a vector keeps its length, is linear, and is invertible; a vector pointing north is turned into the direction in which the image moves when the point moves north; whole-array and single-node calls agree; transforming arrays treats each point by itself and points that cannot be transformed do not affect others; positive longitudes are in [0, 360).", "quantifier": "all rotation angles, vectors, transformations and arrays", "why_tests_cant": "all real inputs", "anchors": ["thetis/coordsys.py: get_vector_rotation_matrix, VectorCoordSysRotation, proj_transform, to_lonlat"]}
{"id": "C54", "title": "Extruded mesh layers are ordered and reach the bed", "statement": "The extruded mesh has its top layer at zero, its bottom layer at minus the (minimum-depth limited) bathymetry and strictly decreasing layer coordinates for every positive stretch factor.", "quantifier": "all layer counts, bathymetries and stretch factors", "why_tests_cant": "all real inputs", "anchors": ["thetis/utility.py: extrude_mesh_sigma"]}
{"id": "C55", "title": "Inversion progress: control values are attributed to the right control", "statement": "At each iteration the optimiser's flat list of values and derivatives is divided among the controls in order without loss or overlap, and all progress lists have one entry per iteration.", "quantifier": "all numbers and shapes of controls and iterations", "why_tests_cant": "index bookkeeping over histories", "anchors": ["thetis/inversion_tools.py: InversionManager.update_progress, ControlManager"]}
{"id": "C56", "title": "Cost function is the sum of its parts", "statement": "After any number of evaluations the total cost equals the regularisation plus the sum over evaluations and observation managers of the misfit; regularisation is non-negative and zero at the prior.", "quantifier": "all numbers of managers and evaluation steps", "why_tests_cant": "accumulation over histories", "anchors": ["thetis/inversion_tools.py: InversionManager.get_cost_function, RSpaceRegularizationCalculator, ControlRegularizationManager"]}
{"id": "C57", "title": "Station time series: one entry per optimisation iteration", "statement": "However many line-search evaluations an iteration takes, the stored station series has exactly one entry per iteration, holding the last evaluation.", "quantifier": "all evaluation histories", "why_tests_cant": "history dependent", "anchors": ["thetis/inversion_tools.py: StationObservationManager.collect_time_series"]}
{"id": "C58", "title": "Every station contributes its own observations", "statement": "Each station's misfit is computed against that station's own observations, for any station coordinates, and only while the station is active.", "quantifier": "all station layouts and times", "why_tests_cant": "needs co-located stations", "anchors": ["thetis/inversion_tools.py: StationObservationManager.construct_evaluator, update_stations_in_use"]}
{"id": "C59", "title": "Optimisation callbacks are transparent", "statement": "Adding any list of optimisation callbacks does not change what the optimiser sees: a derivative callback returns the derivative (post) or the controls (pre) unchanged, and callbacks run in list order.", "quantifier": "all callback lists and arguments", "why_tests_cant": "all lists and nesting", "anchors": ["thetis/optimisation.py: OptimisationCallback, OptimisationCallbackList"]}
{"id": "C60", "title": "Equation residual is the sum of its terms by label", "statement": "The residual for a set of labels is the sum of exactly the terms carrying one of these labels; splitting the labels splits the residual; adding a term with an existing name replaces it.", "quantifier": "all term sequences and label sets", "why_tests_cant": "all registration histories", "anchors": ["thetis/equation.py: Equation"]}
{"id": "C61", "title": "Schur complement preconditioner", "statement": "The preconditioner applies the assembled Schur complement A11 - A10*inv(A00)*A01, the same after repeated updates as after the first, so solving with it and back-substituting solves the block system.", "quantifier": "all block matrices with invertible A00", "why_tests_cant": "linear-algebra identity", "anchors": ["thetis/assembledschur.py: AssembledSchurPC"]}
{"id": "C62", "title": "Turbine thrust and power are consistent with actuator disc theory", "statement": "With upwind correction the ratio of local to upstream velocity lies in [1/2, 1] and satisfies the actuator-disc relation, so the friction applied to the local velocity equals the thrust defined by the upstream velocity; without correction the ratio is 1. The default power coefficient is non-negative, at most the thrust coefficient and at most 16/27, and the power equals thrust times disc velocity. Adding turbines never lowers the density anywhere, leaves it unchanged away from them and does not depend on their order. The density is smooth in the positions, each turbine adds most where it stands, and the density integrates to the number of turbines within six percent, whatever their size and positions.", "quantifier": "all thrust areas up to the blocked cross-section, depths, thrust coefficients in [0,1], turbine lists", "why_tests_cant": "inequalities over real parameters", "anchors": ["thetis/turbines.py: TidalTurbine.velocity_correction, friction_coefficient, power, ConstantThrustTurbine, DiscreteTidalTurbineFarm.add_turbines"]}
{"id": "C63", "title": "Switched-on components are advanced or rejected", "statement": "For every combination of tracers, suspended sediment, bed evolution, held shallow water (tracer_only) and non-hydrostatic pressure, either building the 2D time integrator fails, or each step advances every component that is switched on exactly once and leaves everything else unchanged.", "quantifier": "all configurations and states", "why_tests_cant": "the combinations are too many to run and some are never tested together", "anchors": ["thetis/solver2d.py: FlowSolver2d.create_timestepper", "thetis/coupled_timeintegrator_2d.py: GeneralCoupledTimeIntegrator2D, NonHydrostaticTimeIntegrator2D"]}
{"id": "C64", "title": "Limited stability functions are well defined and positive", "statement": "For every selectable stability function and every flow state (any stratification, any shear, any turbulence level) the limited functions have a non-zero denominator and are positive, so eddy viscosity and diffusivity never become negative or undefined; inside the admissible range the limiters change nothing.", "quantifier": "all buoyancy and shear frequencies, kinetic energies and dissipation rates; both buoyancy limiters; all selectable functions", "why_tests_cant": "positivity over an unbounded two-parameter region cannot be sampled exhaustively", "anchors": ["thetis/stability_functions.py: StabilityFunctionBase.evaluate, get_alpha_buoy_min, get_alpha_shear_max", "thetis/turbulence.py: GenericLengthScaleModel.__init__"]}
{"id": "C65", "title": "Equivalent formulations of a stability function agree", "statement": "The form of Canuto et al. and the form of Umlauf and Burchard define the same functions when their parameters correspond, and the Cheng form is the same formula normalised by its leading denominator coefficient.", "quantifier": "all parameter sets and all normalised frequencies", "why_tests_cant": "an algebraic identity in eight parameters; a test compares a few numbers with loose tolerances", "anchors": ["thetis/stability_functions.py: CanutoStabilityFunctionBase, ChengStabilityFunctionBase, GOTMStabilityFunctionBase"]}
{"id": "C66", "title": "Every accepted stability function name can be used", "statement": "Each value accepted by the option stability_function_name selects a defined stability function, so building the turbulence model never fails for an accepted option value.", "quantifier": "all accepted option values", "why_tests_cant": "tests run the default function only", "anchors": ["thetis/turbulence.py: GenericLengthScaleModel.__init__", "thetis/options.py: GLSModelOptions"]}
{"id": "C67", "title": "Bedload flux has the stated direction and magnitude", "statement": "No sediment moves as bedload where the skin friction does not exceed the critical stress; without corrections the flux is along the flow with the Meyer-Peter-Mueller magnitude; the slope correction increases it down-slope; the angle correction turns it down-slope without changing its size; the secondary current turns it towards the lower free surface and changes nothing where the surface does not slope across the flow; where the water is at rest the flux is zero; the total bed volume changes only by the outflow through boundaries that are not closed.", "quantifier": "all flow states, sediment parameters, correction switches and boundary conditions", "why_tests_cant": "signs of three interacting vector corrections over all directions; tests use one channel and one bend", "anchors": ["thetis/sediment_model.py: SedimentModel.get_bedload_term", "thetis/exner_eq.py: ExnerBedloadTerm"]}
{"id": "C68", "title": "Updating the sediment model equals building it for the current flow", "statement": "After SedimentModel.update() every derived field (bed stress, erosion, equilibrium concentration, bedload direction, velocity correction) has the value a newly built model would have for the current flow fields, after any number of updates and for every combination of the documented switches; a sediment size below the validity limit is refused.", "quantifier": "all switch combinations, all histories of flow states", "why_tests_cant": "the update sequence must mirror the constructor for 2^6 switch combinations", "anchors": ["thetis/sediment_model.py: SedimentModel.__init__, update", "thetis/options.py: SedimentModelOptions"]}
{"id": "C69", "title": "Coefficients at the old time level are those of the previous step", "statement": "In forward Euler and Crank-Nicolson every coefficient field used at the old time level has the value it had at the new level of the step before (at initialisation in the first step), so a steady source adds dt times its value in every step.", "quantifier": "all coefficient dictionaries, forcings and numbers of steps", "why_tests_cant": "all histories of forcing updates and all kinds of coefficient values", "anchors": ["thetis/timeintegrator.py: create_fields_old, update_fields_old, ForwardEuler, CrankNicolson"]}
{"id": "C70", "title": "Deferred exports write current values", "statement": "Every call of the control or derivative export writes, for each control, the value of that call to a file of its own named after the control; user functions are exported once each under their standard or given names.", "quantifier": "all sequences of calls, lists of functions, names and spaces", "why_tests_cant": "all call histories and name lists", "anchors": ["thetis/optimisation.py: UserExportManager, DeferredExportManager, ControlsExportOptimisationCallback, DerivativesExportOptimisationCallback", "thetis/exporter.py: ExportManager"]}
{"id": "C71", "title": "Export managers do not share preprocessing functions", "statement": "A preprocessing function added to one export manager is called by that manager before it exports the field and never by another manager.", "quantifier": "all managers, fields and order of additions", "why_tests_cant": "needs several managers in one process and all orders", "anchors": ["thetis/exporter.py: ExportManager.__init__, ExportManager.add_export"]}
{"id": "C72", "title": "A uniform 2D tracer stays uniform under advection", "statement": "The non-conservative advection term is zero, for every test function, when the tracer is uniform, whatever the velocity field and the Lax-Friedrichs option, if prescribed tracer values agree with it; prescribed boundary velocities do not change that.", "quantifier": "all meshes, velocity fields (continuous or not, divergent or not), test functions for which the quadrature is exact, factors, boundary conditions", "why_tests_cant": "all fields and meshes; tests run a few setups with tolerances", "anchors": ["thetis/tracer_eq_2d.py: HorizontalAdvectionTerm, TracerTerm.get_bnd_functions"]}
{"id": "C73", "title": "Upwinding of 2D tracers does not create variance", "statement": "For a divergence-free velocity with continuous normal component the square of the tracer, integrated, changes by minus half the sum of |u.n| times squared jumps, minus outflow, plus at most what prescribed inflow values bring.", "quantifier": "all tracers, velocities, boundary values, Lax-Friedrichs factors", "why_tests_cant": "an inequality over all fields", "anchors": ["thetis/tracer_eq_2d.py: HorizontalAdvectionTerm"]}
{"id": "C74", "title": "Conservative tracer form conserves mass cell by cell", "statement": "In the conservative form every facet has one flux that leaves one cell and enters the other; the total changes only by boundary fluxes and sources; where the boundary prescribes tracer and velocity, their product passes the boundary; closed basins conserve.", "quantifier": "all tracers, velocities, boundary conditions, test functions constant on cells", "why_tests_cant": "all fields; tests check a total within tolerance for one setup", "anchors": ["thetis/tracer_eq_2d.py: ConservativeHorizontalAdvectionTerm, SourceTerm, ConservativeSourceTerm"]}
{"id": "C75", "title": "2D tracer diffusion is symmetric, conservative and dissipative", "statement": "Horizontal diffusion leaves uniform tracers alone, is symmetric, moves tracer between cells by single-valued fluxes, changes the total by prescribed diffusive fluxes only, and does not increase the integrated square with the default penalty for linear elements on triangles.", "quantifier": "all tracers, nonnegative diffusivities, meshes and penalty factors of at least one half", "why_tests_cant": "an inequality over all fields and meshes", "anchors": ["thetis/tracer_eq_2d.py: HorizontalDiffusionTerm"]}
{"id": "C76", "title": "Water volume is exchanged by single-valued facet fluxes and conserved with closed boundaries", "statement": "The free surface equation moves volume between cells by fluxes that do not depend on the side they are seen from; the total volume changes by the flux through open boundaries and the volume source only, and is constant with closed boundaries. A boundary with a prescribed flux passes that flux, and the volume reported by the conservation check is the conserved one.", "quantifier": "all velocities, elevations, bathymetries, meshes and boundary conditions", "why_tests_cant": "a budget over all fields; tests look at a few flows", "anchors": ["thetis/shallowwater_eq.py: HUDivTerm", "thetis/shallowwater_eq.py: ModeSplit2DEquations.mass_term", "thetis/utility.py: comp_volume_2d"]}
{"id": "C77", "title": "Water at rest stays at rest", "statement": "With zero velocity and constant elevation the residual of the shallow water equations vanishes, for every bathymetry, friction, viscosity, Coriolis parameter and turbine farm, with closed boundaries and boundaries that prescribe rest; a surface slope accelerates the water by gravity times the slope, and a surface balancing the atmospheric pressure does not move.", "quantifier": "all bathymetries, options, meshes and test functions", "why_tests_cant": "tests run one lake at rest", "anchors": ["thetis/shallowwater_eq.py: ShallowWaterEquations.residual", "thetis/shallowwater_eq.py: ExternalPressureGradientTerm"]}
{"id": "C78", "title": "Gravity waves do not create energy", "statement": "Pressure gradient and divergence exchange potential and kinetic energy without creating any; on discontinuous elements jumps of elevation and velocity lose energy, with closed boundaries no energy enters, and boundaries that hold the elevation at zero do not add energy.", "quantifier": "all velocities and elevations, meshes", "why_tests_cant": "an inequality over all states", "anchors": ["thetis/shallowwater_eq.py: ExternalPressureGradientTerm", "thetis/shallowwater_eq.py: HUDivTerm"]}
{"id": "C79", "title": "Friction dissipates, the Coriolis force does no work, stresses push along their direction", "statement": "The Coriolis force turns the velocity to the right for a positive parameter and does no work. Quadratic, linear, boundary and turbine drag never increase kinetic energy. Wind stress, atmospheric pressure and momentum sources act with the documented sign and scale. Of the drag coefficients given at most one is used; Manning and Nikuradse values give the documented nonnegative coefficient.", "quantifier": "all velocities, coefficients, depths and test functions", "why_tests_cant": "sign and inequality statements over all fields", "anchors": ["thetis/shallowwater_eq.py: QuadraticDragTerm", "thetis/shallowwater_eq.py: CoriolisTerm", "thetis/shallowwater_eq.py: TurbineDragTerm", "thetis/shallowwater_eq.py: BoundaryDragTerm"]}
{"id": "C80", "title": "Momentum advection keeps uniform flow and does not create kinetic energy", "statement": "The advection term vanishes for a uniform velocity that the boundaries agree with; for a velocity tested with itself what is left is half the divergence of the carrying flow, its normal jumps at facets, and losses by the Lax-Friedrichs flux.", "quantifier": "all velocities, carrying velocities, meshes and scaling factors", "why_tests_cant": "an identity over all fields", "anchors": ["thetis/shallowwater_eq.py: HorizontalAdvectionTerm"]}
{"id": "C81", "title": "Boundary dictionaries of the shallow water equations mean what their keys say", "statement": "A boundary is closed exactly without a dictionary or with drag alone; unknown keys are reported; an open boundary always has external values, which are the prescribed elevation or the interior one, and the prescribed velocity, the normal velocity or flux along the outward normal, or the interior one; all terms use the same velocity.", "quantifier": "all dictionaries, in all key orders", "why_tests_cant": "the combinations and orders of keys are not enumerated by tests", "anchors": ["thetis/shallowwater_eq.py: ShallowWaterTerm.impose_dynamic_bnd", "thetis/shallowwater_eq.py: ShallowWaterTerm.get_bnd_functions", "thetis/shallowwater_eq.py: HorizontalViscosityTerm"]}
{"id": "C82", "title": "Horizontal viscosity conserves momentum and dissipates energy", "statement": "Viscosity leaves uniform flow alone, and rigid rotation with the symmetric stress; it moves momentum between cells by single-valued fluxes, is symmetric and never increases kinetic energy with the default penalty for linear elements on triangles. With the depth gradient term it conserves the momentum of the water column.", "quantifier": "all velocities, viscosities continuous across facets, meshes and penalty factors of at least one half", "why_tests_cant": "an inequality and budgets over all fields", "anchors": ["thetis/shallowwater_eq.py: HorizontalViscosityTerm", "thetis/utility.py: tensor_jump"]}
{"id": "C83", "title": "A uniform concentration stays uniform in the conservative tracer form", "statement": "The conservative tracer equation moves a depth-integrated tracer of uniform concentration exactly as the free surface equation moves water, for every test function.", "quantifier": "all depths, velocities, test functions and concentrations", "why_tests_cant": "consistency of two discretisations for all fields", "anchors": ["thetis/tracer_eq_2d.py: ConservativeHorizontalAdvectionTerm", "thetis/shallowwater_eq.py: HUDivTerm"]}
{"id": "C84", "title": "Sediment in water and bed is conserved over a step", "statement": "In a step of suspended sediment followed by a step of the Exner equation, the sediment in the water plus the sediment in the bed (bed volume times (1-porosity)/morfac) changes only by what the flow and the bedload carry through the open boundaries; sediment that settles leaves the water and enters the bed in the same amount, and no sediment passes closed walls.", "quantifier": "all meshes, fields, time steps, options of the sediment model, depth-averaged and depth-integrated sediment, Crank-Nicolson steps with any theta", "why_tests_cant": "the budget is a sum over the mesh of two equations solved one after the other; tests compare bed profiles with tolerances of several percent", "anchors": ["thetis/sediment_eq_2d.py: SedimentDepositionTerm, SedimentErosionTerm, SedimentEquation2D", "thetis/exner_eq.py: ExnerSourceTerm, ExnerBedloadTerm, ExnerSedimentSlideTerm, ExnerEquation", "thetis/coupled_timeintegrator_2d.py: CoupledTimeIntegrator2D.advance", "thetis/timeintegrator.py: CrankNicolson"]}
{"id": "C85", "title": "The vertical velocity balances the horizontal flow in every cell", "statement": "The vertical velocity of the 3D model conserves volume: in every cell the flows through the facets add up to zero, nothing passes the bottom or a side without boundary condition, and the flow through the surface of a water column equals the net inflow through its sides. Exact divergence-free flows satisfy the equation, and it determines the vertical velocity uniquely.", "quantifier": "all meshes, horizontal velocities and sets of open boundaries", "why_tests_cant": "a budget for every cell and every flow field", "anchors": ["thetis/utility3d.py: VerticalVelocitySolver", "thetis/solver.py: create_solvers w_solver"]}
{"id": "C86", "title": "A uniform tracer stays uniform in 3D", "statement": "With the vertical velocity of the model, a tracer that is constant in space stays constant, on fixed and moving meshes, with or without diffusion, if the tracer has a boundary condition exactly where the momentum equation is open.", "quantifier": "all meshes, velocities, mesh velocities and test functions for which the vertical velocity equation holds", "why_tests_cant": "consistency of two discretisations for all flow fields", "anchors": ["thetis/tracer_eq.py: HorizontalAdvectionTerm", "thetis/tracer_eq.py: VerticalAdvectionTerm", "thetis/utility3d.py: VerticalVelocitySolver"]}
{"id": "C87", "title": "Advection of 3D tracers conserves mass and does not create variance", "statement": "The total of a tracer changes only by what passes the open sides and the surface and by sources; the integral of its square changes by what passes the boundaries minus a nonnegative amount.", "quantifier": "all meshes, velocities, mesh velocities and tracers", "why_tests_cant": "budgets and an inequality over all fields", "anchors": ["thetis/tracer_eq.py: HorizontalAdvectionTerm", "thetis/tracer_eq.py: VerticalAdvectionTerm"]}
{"id": "C88", "title": "Diffusion of 3D tracers conserves mass and reduces variance", "statement": "Vertical diffusion moves tracer within a water column only, is symmetric, consistent and reduces the variance; horizontal diffusion does so over level bottoms.", "quantifier": "all meshes, diffusivities and tracers", "why_tests_cant": "inequalities over all fields and meshes", "anchors": ["thetis/tracer_eq.py: HorizontalDiffusionTerm", "thetis/tracer_eq.py: VerticalDiffusionTerm"]}
{"id": "C89", "title": "Advection of 3D momentum keeps uniform flows, conserves momentum and does not create energy", "statement": "With the vertical velocity of the model, the advection terms of the 3D momentum equation leave a uniform flow alone, change total momentum only by what passes the open sides and the surface and by the stabilisation at walls, and change kinetic energy by what passes the boundaries minus a nonnegative amount.", "quantifier": "all meshes, velocities, depth averages, mesh velocities and boundary conditions", "why_tests_cant": "identities and an inequality over all flow fields", "anchors": ["thetis/momentum_eq.py: HorizontalAdvectionTerm", "thetis/momentum_eq.py: VerticalAdvectionTerm"]}
{"id": "C90", "title": "Viscosity and friction take energy from the 3D flow", "statement": "Vertical viscosity exchanges momentum within a water column only and takes energy, horizontal viscosity takes energy where surface and bottom have no stress, bottom friction and linear drag take energy, the Coriolis force does no work, the wind exerts its stress divided by density; the drag coefficient computed from a roughness length is finite and positive.", "quantifier": "all meshes, velocities, viscosities, roughness lengths and element heights", "why_tests_cant": "inequalities over all fields; the drag formula is singular at one ratio of height to roughness only", "anchors": ["thetis/momentum_eq.py: HorizontalViscosityTerm", "thetis/momentum_eq.py: VerticalViscosityTerm", "thetis/momentum_eq.py: BottomFrictionTerm", "thetis/momentum_eq.py: LinearDragTerm", "thetis/momentum_eq.py: CoriolisTerm", "thetis/momentum_eq.py: SourceTerm"]}
{"id": "C91", "title": "The internal pressure gradient is the gradient of the baroclinic head", "statement": "The weak form of the internal pressure gradient equals g times the gradient of the head, plus jumps of the head between elements and half of the difference to a prescribed head at the sides; it vanishes for a continuous head without horizontal variation, in total it equals the head on the boundary, and enters the momentum equation with a minus sign.", "quantifier": "all meshes, heads, test functions and boundary conditions", "why_tests_cant": "an identity over all fields; by-parts and strong form use different code", "anchors": ["thetis/momentum_eq.py: InternalPressureGradientCalculator", "thetis/momentum_eq.py: PressureGradientTerm"]}
{"id": "C92", "title": "The vertical integrator integrates over the water column", "statement": "A field whose vertical derivative is the integrand and which starts at zero solves the equations of VerticalIntegrator, upwards and downwards, continuous and discontinuous; the solution is unique up to fields without vertical variation that vanish at the start; the head is the integral of density from the surface divided by rho0; the average divides by the total depth; stretching the columns stretches the integral.", "quantifier": "all extruded meshes, integrands, directions and test functions", "why_tests_cant": "an identity over all meshes and fields; the solver is a linear system per column", "anchors": ["thetis/utility3d.py: VerticalIntegrator", "thetis/utility.py: compute_baroclinic_head"]}
{"id": "C93", "title": "Density follows the equation of state and orders waters as it should", "statement": "The Jackett equation of state gives a density between 992 and 1036 kg/m3 for all salinities in [0, 42] and temperatures in [-2, 40] at the surface, increasing with salinity, decreasing with temperature from 4 degrees on, reproduces the published check values, subtracts the reference density and treats negative salinities as zero; the linear one has the stated slopes; both density solvers use the same density at the nodes; computing density does not change the salinity.", "quantifier": "all salinities and temperatures of the sea, all fields", "why_tests_cant": "inequalities over a continuum of arguments of a rational function with 25 coefficients", "anchors": ["thetis/utility3d.py: JackettEquationOfState", "thetis/utility3d.py: LinearEquationOfState", "thetis/utility3d.py: DensitySolver", "thetis/utility3d.py: DensitySolverWeak"]}
{"id": "C94", "title": "Smagorinsky viscosity measures the strain of the flow", "statement": "The Smagorinsky viscosity is (C_s dx)^2 times the deformation rate: it does not depend on the direction of the axes, vanishes exactly for flows without deformation, stays between its bounds, and with the bound of the solver keeps the diffusion number at most 1/60; a uniform flow has none and a strained flow has some.", "quantifier": "all velocity fields, extruded meshes, bounds and time steps", "why_tests_cant": "an identity over all meshes; existing tests use flat meshes or none", "anchors": ["thetis/utility3d.py: SmagorinskyViscosity", "thetis/solver.py: FlowSolver.create_equations", "thetis/solver.py: FlowSolver.create_timestepper"]}
{"id": "C95", "title": "Copying between the 2D and the 3D mesh", "statement": "ExpandFunctionTo3d gives every node of the 3D space the value of the 2D node below it, SubFunctionExtractor gives every 2D node the value of the chosen facet (bottom, top, mean of both) of the uppermost or lowest element, and extraction undoes expansion, whatever the order in which cells are visited and whatever the target held before.", "quantifier": "all extruded meshes, continuous and discontinuous spaces of any degree, numbers of components, cell orders, fields", "why_tests_cant": "existing tests compare fields on one or two meshes with degrees 1 and 2; orders of cells and degree 0 are never tried", "anchors": ["thetis/utility3d.py: ExpandFunctionTo3d", "thetis/utility3d.py: SubFunctionExtractor", "thetis/utility.py: get_facet_mask"]}
{"id": "C96", "title": "Mode splitting passes the depth average of 3D forces to the 2D mode once", "statement": "Forces of the 3D momentum equation accelerate the depth averaged flow with their full strength: over any number of steps the velocity of the 2D mode changes by the impulse of the 2D forces, of the depth average of the 3D forces and of the implicit vertical step (up to half a step still to be applied), and the depth average of the velocity seen by users is the velocity of the 2D mode.", "quantifier": "all forces depending in any way on the state, numbers of steps, vertical grids, both coupled time integrators", "why_tests_cant": "no test drives the depth averaged flow through the 3D equation and compares with the exact acceleration; drift is proportional to time", "anchors": ["thetis/coupled_timeintegrator.py: CoupledTwoStageRK.advance", "thetis/coupled_timeintegrator.py: CoupledLeapFrogAM3.advance", "thetis/coupled_timeintegrator.py: CoupledTimeIntegratorBase._update_2d_coupling", "thetis/timeintegrator.py: LeapFrogAM3"]}
{"id": "C97", "title": "Mesh consistency metric", "statement": "The hydrostatic consistency metric of Mesh3DConsistencyCalculator is zero exactly at level facets, does not change when the element is moved vertically, is below one on a facet only if the highest bottom node of the element is lower than its lowest surface node, and is one exactly when these nodes are level.", "quantifier": "all prisms with nodes below 1e20 in magnitude", "why_tests_cant": "holds for all node heights; the test looks at the range of the metric on one mesh", "anchors": ["thetis/utility3d.py: Mesh3DConsistencyCalculator"]}
{"id": "C98", "title": "Every requested process acts once in the 3D solver", "statement": "Whatever the options, each process the user asks for (pressure gradient, advection, viscosity, friction, drag, Coriolis, wind, sources, diffusion) is part of exactly one of the explicit and implicit integrators, friction and drag see the full velocity with the depth average once, inconsistent options are refused when the integrators are made, and closures and user functions that take part are updated in every step.", "quantifier": "all combinations of options of the 3D solver, both coupled time integrators", "why_tests_cant": "the number of combinations is far beyond a test suite; most tests use one of them", "anchors": ["thetis/coupled_timeintegrator.py: CoupledTimeIntegrator._create_mom_integrator", "thetis/coupled_timeintegrator.py: CoupledTimeIntegrator._get_vert_diffusivity_functions", "thetis/solver.py: FlowSolver.create_equations", "thetis/momentum_eq.py: MomentumEquation"]}
{"id": "C99", "title": "Measures of mesh cells", "statement": "The element size given by get_horizontal_elem_size_2d is positive, equals the root of the cell area on meshes of equal cells and is right on average; get_minimum_angles_2d gives the smallest angle of each triangle; get_cell_widths_2d gives the extent of each cell, so that the automatic wetting and drying parameter bounds the depth differences within a cell; anisotropic_cell_size gives the smallest stretching of the cell map.", "quantifier": "all triangle meshes, orders of edges and cells, bathymetry gradients, Jacobians", "why_tests_cant": "tests use a few structured meshes, on which all cells are alike", "anchors": ["thetis/utility.py: get_horizontal_elem_size_2d", "thetis/utility.py: get_minimum_angles_2d", "thetis/utility.py: get_cell_widths_2d", "thetis/utility.py: anisotropic_cell_size", "thetis/solver2d.py: FlowSolver2d.set_wetting_and_drying_alpha"]}
{"id": "C100", "title": "Automatic time steps", "statement": "With automatic time steps the step is positive, divides the export interval (3D), stays within the documented limits of advection and diffusion at every node, is shorter for higher polynomial degree and does not depend on the distribution of the mesh over processes; in water of uniform depth on equal cells the 2D step is the documented CFL step.", "quantifier": "all element sizes, degrees, element families, scales, CFL numbers, numbers of processes", "why_tests_cant": "tests check that runs with given steps succeed; the estimate itself is compared with nothing", "anchors": ["thetis/solver.py: FlowSolver.set_time_step", "thetis/solver.py: FlowSolver.compute_dx_factor", "thetis/solver.py: FlowSolver.compute_dz_factor", "thetis/solver.py: FlowSolver.compute_dt_h_advection", "thetis/solver2d.py: FlowSolver2d.compute_time_step", "thetis/solver2d.py: FlowSolver2d.set_time_step"]}
{"id": "C101", "title": "Beta plane", "statement": "beta_plane_coriolis_function gives the Coriolis parameter of the given latitude at y_offset, is accurate to second order in the distance from it, grows northwards and mirrors between the hemispheres.", "quantifier": "all latitudes, offsets and distances", "why_tests_cant": "tests use one latitude and do not compare with the sphere", "anchors": ["thetis/utility.py: beta_plane_coriolis_params", "thetis/utility.py: beta_plane_coriolis_function"]}
{"id": "C102", "title": "Non-hydrostatic pressure step", "statement": "The depth integrated Poisson solver corrects the velocities so that they satisfy the depth integrated continuity equation div u + 2 (w - w_b)/H = 0 in weak form, with w_b the velocity at the bed; a flow that satisfies it is left alone; the correction takes kinetic energy out of the flow; the pressure is zero at open boundaries.", "quantifier": "all meshes, function spaces, elevations, depths, velocities, time steps, open boundaries", "why_tests_cant": "tests compare one standing wave in a flat closed basin with the exact solution", "anchors": ["thetis/utility.py: DepthIntegratedPoissonSolver"]}
{"id": "C103", "title": "Recovery of vorticity and Hessians", "statement": "The vorticity calculator returns the projection of the curl of a continuous velocity, with the circulation along the boundary as its integral; the Hessian recoverer returns the projection of the gradient and of the gradient of the recovered gradient; for fields whose derivatives belong to the spaces the result is exact.", "quantifier": "all meshes, function spaces, velocities and scalar fields", "why_tests_cant": "tests check one field on one mesh", "anchors": ["thetis/diagnostics.py: VorticityCalculator2D", "thetis/diagnostics.py: HessianRecoverer2D"]}
{"id": "C104", "title": "Error indicators add up to the estimate", "statement": "The error indicator of a cell is its share of the functional, so the indicators of all cells add up to the functional; the dual weighted residual estimator rejects steppers, dimensions and meshes it does not support with the documented exceptions.", "quantifier": "all meshes, all functionals made of cell, interior and exterior facet integrals on all subdomains, all steppers", "why_tests_cant": "tests look at one functional without facet integrals", "anchors": ["thetis/diagnostics.py: DualWeightedResidual2D", "thetis/utility.py: form2indicator"]}
{"id": "C105", "title": "Kinetic energy", "statement": "Kinetic energy is half the density times the square of the velocity: it is not negative, zero only at rest, its total is the kinetic energy of the flow and its horizontal part leaves out the vertical velocity.", "quantifier": "all meshes, velocities, densities, interpolated or projected", "why_tests_cant": "tests look at one velocity in two dimensions", "anchors": ["thetis/diagnostics.py: KineticEnergyCalculator"]}
{"id": "C106", "title": "Pressure projection scheme", "statement": "A step of PressureProjectionPicard is a step of the theta scheme for the shallow water equations, linearised about the last iterate; converged iterations satisfy the theta scheme itself; all source terms act; volume is kept in closed basins, also with wetting and drying; the solvers get the options given for them.", "quantifier": "all equations (lists of labelled terms), theta, time steps, numbers of iterations, states, options", "why_tests_cant": "tests run a few steps of one wave and compare with other schemes to a tolerance", "anchors": ["thetis/timeintegrator.py: PressureProjectionPicard", "thetis/shallowwater_eq.py: ShallowWaterEquations", "thetis/options.py: PressureProjectionSWETimeStepperOptions2d"]}
{"id": "C107", "title": "Time levels of forcings", "statement": "The theta scheme weighs forcings at the old and the new time, so that Crank-Nicolson is second order in time for time-dependent forcings; forward Euler takes them at the old time; a steady solution is not moved by either.", "quantifier": "all residuals, forcings, time steps, numbers of steps", "why_tests_cant": "tests use steady forcings or tolerances wider than the error", "anchors": ["thetis/timeintegrator.py: TimeIntegrator", "thetis/timeintegrator.py: CrankNicolson", "thetis/timeintegrator.py: SteadyState"]}
{"id": "C108", "title": "Stations, profiles and transects", "statement": "Callbacks for different stations or fields have their own names and files; a station, profile or transect samples the water column at the positions it reports, from bed to surface, within forced limits; entry (level, column) of a transect is the value at that point; there is a variable for each array.", "quantifier": "all locations, field lists, depths, elevations, numbers of points, limits", "why_tests_cant": "tests run none of these callbacks", "anchors": ["thetis/callback.py: TimeSeriesCallback2D", "thetis/callback.py: TimeSeriesCallback3D", "thetis/callback.py: VerticalProfileCallback", "thetis/callback.py: TransectCallback"]}
{"id": "C109", "title": "Heights of ROMS levels", "statement": "The heights attributed to the levels of a ROMS file rise strictly from exactly the bed to exactly the surface, each within its own layer, and the fixed elevation used in place of the elevation in the file displaces a level by at most the difference of the two elevations.", "quantifier": "all numbers of layers, bathymetries, elevations, stretching curves and critical depths", "why_tests_cant": "needs ROMS files; the repository has no test of the reader, and a wrong height gives plausible temperatures", "anchors": ["thetis/forcing.py: SpatialInterpolatorROMS3d._compute_roms_z_coord"]}
{"id": "C110", "title": "Source points and their data belong together", "statement": "Readers of ocean and atmosphere files pair the coordinates of each source node and level with the data of the same node and level; every target on the source grid finds the triangle around it among the nodes that are read; a target that has to be filled gets the value of the nearest node with data, independent of the other targets (the partition of the mesh).", "quantifier": "all grids, triangulations, masks, target points, variables", "why_tests_cant": "needs data files of several ocean models; index mistakes give plausible fields, and dependence on the partition shows only in parallel", "anchors": ["thetis/forcing.py: SpatialInterpolatorNCOMBase._create_2d_mapping", "thetis/forcing.py: SpatialInterpolatorROMS3d", "thetis/forcing.py: GenericSpatialInterpolator2D", "thetis/interpolation.py: SpatialInterpolator2d", "thetis/interpolation.py: NetCDFLatLonInterpolator2d"]}
{"id": "C111", "title": "Variables reach their fields, and forecasts are cut in time", "statement": "Every field of a forcing interpolator receives its own variable, vector fields the rotated pair of components; of a forecast file exactly the time stamps within the requested duration are used, so that consecutive files join without overlap.", "quantifier": "all lists of field names and components, rotations, time stamps and durations", "why_tests_cant": "needs data files; a swapped component or an extra time stamp gives plausible forcing", "anchors": ["thetis/forcing.py: GenericInterpolator2D", "thetis/forcing.py: NCOMInterpolator", "thetis/forcing.py: ATMNetCDFTime"]}
{"id": "C112", "title": "Stabilisation of tracers along the flow", "statement": "The SUPG option changes the test function of the tracer terms only: it keeps uniform tracers, the amount of tracer and every exact steady solution, takes variance from tracers that change along the flow, and its parameter is a positive time of at most half a cell over the velocity scale.", "quantifier": "all meshes, velocities, tracers, test functions, scales, cell sizes", "why_tests_cant": "the repository tests one steady problem against a tolerance; consistency for all fields and unsteady problems cannot be sampled", "anchors": ["thetis/tracer_eq_2d.py: TracerEquation2D.apply_supg", "thetis/tracer_eq_2d.py: HorizontalAdvectionTerm", "thetis/equation.py: Equation.mass_term"]}
{"id": "C113", "title": "Fields computed from others belong to the current state", "statement": "After assign_initial_conditions, load_state and every time step of the 3D solver the elevation and mesh of the 3D equations, vertical velocity, density and pressure gradient, eddy viscosity and Smagorinsky viscosity are those of the prognostic fields at that moment, and every initial field that is given is used.", "quantifier": "all options, all initial fields, all states, all equations and limiters, both coupled time integrators", "why_tests_cant": "the tests compare end results of single configurations with tolerances; a field that lags by a step or an argument that is ignored does not show", "anchors": ["thetis/coupled_timeintegrator.py: CoupledTwoStageRK.advance", "thetis/coupled_timeintegrator.py: CoupledLeapFrogAM3.advance", "thetis/solver.py: FlowSolver.assign_initial_conditions", "thetis/turbulence.py: GenericLengthScaleModel.initialize"]}
{"id": "C114", "title": "Initial velocity of a 3D run", "statement": "The velocity given to assign_initial_conditions, as uv_2d, uv_3d or both, is the velocity of the run: it is exported at the start, its depth average is the velocity of the 2D mode, and without forces it persists.", "quantifier": "all columns, weights, profiles, time steps, numbers of steps", "why_tests_cant": "the tests start from rest or from uv_2d; the velocity of the 2D mode after two steps is not compared with the profile given", "anchors": ["thetis/solver.py: FlowSolver.assign_initial_conditions", "thetis/coupled_timeintegrator.py: CoupledTimeIntegratorBase._update_2d_coupling"]}
{"id": "C115", "title": "Restart of a 3D simulation", "statement": "load_state restores the state stored by export, so that the run continues as if it had not been interrupted: elevation, mesh, velocities, tracers, turbulence and all diagnostic fields, and the momentum exchanged between the modes.", "quantifier": "all options, all stored states, all equations; all columns and forces", "why_tests_cant": "the tests compare one continued run in a tolerance; what is lost at a restart depends on the state and is of the size of half a time step", "anchors": ["thetis/solver.py: FlowSolver.load_state", "thetis/solver.py: FlowSolver.export", "thetis/turbulence.py: GenericLengthScaleModel.initialize"]}
{"id": "C116", "title": "Shear and buoyancy frequencies", "statement": "The frequencies of the turbulence closures are the vertical gradients of velocity and density on the current mesh: exact for linear profiles, and their integral over the depth is the difference between surface and bed.", "quantifier": "all layers, thicknesses, fields linear in the layers, stretchings of the mesh", "why_tests_cant": "the tests of the closures use meshes that hardly move; an error proportional to the elevation is within their tolerance", "anchors": ["thetis/turbulence.py: VerticalGradSolver", "thetis/turbulence.py: ShearFrequencySolver", "thetis/turbulence.py: BuoyFrequencySolver"]}
{"id": "C117", "title": "Initial conditions and restart of a 2D run", "statement": "assign_initial_conditions sets exactly the fields that are named, each tracer by its label with or without _2d, sediment as a concentration; load_state restores the stored state so that the run continues as if not interrupted.", "quantifier": "all sets of tracers and labels, all given fields, all stored states, all steps", "why_tests_cant": "the tests restart runs without tracers or sediment and use tracer labels that end with _2d", "anchors": ["thetis/solver2d.py: FlowSolver2d.assign_initial_conditions", "thetis/solver2d.py: FlowSolver2d.load_state"]}
{"id": "C118", "title": "Boundary conditions of tracers", "statement": "Boundary conditions given in bnd_functions under the label of a tracer, with or without _2d, apply to this tracer and to no other one, whether it is solved on its own or in a mixed system.", "quantifier": "all labels, all dictionaries of conditions, all mixed systems", "why_tests_cant": "the tests use conditions with one tracer on its own; conditions that are silently ignored or applied to another tracer do not raise", "anchors": ["thetis/solver2d.py: FlowSolver2d.get_tracer_timestepper", "thetis/tracer_eq_2d.py: TracerTerm.get_bnd_functions", "thetis/options.py: ModelOptions2d.add_tracer_system_2d"]}
{"id": "C119", "title": "Solvers of one process are independent", "statement": "Any number of 2D solvers can be created and used in one process in any order, with the same or with different tracers.", "quantifier": "all lists of labels, all sequences of solvers", "why_tests_cant": "the test modules run each script once in a process, or use the default tracer only", "anchors": ["thetis/solver2d.py: FlowSolver2d.__init__", "thetis/solver2d.py: FlowSolver2d.add_new_field", "thetis/field_defs.py: field_metadata", "thetis/exporter.py: ExportManager.add_export"]}
{"id": "C120", "title": "Turbines in a sheared current", "statement": "With apply_shear_profile the speed at the rotor is an average of the profile over the swept disc, for a hub fixed to the bed or floating; the profile has the modelled depth-averaged velocity as its mean; power, thrust and drag use the same speed and correction, so that a farm never produces more power than its drag takes from the flow.", "quantifier": "all diameters, hub heights, depths, speeds, exponents, coefficients and weights", "why_tests_cant": "no test runs the shear profile; energy consistency is an inequality over all parameters", "anchors": ["thetis/turbines.py: TidalTurbine.rotor_averaged_velocity", "thetis/turbines.py: TidalTurbine.power", "thetis/turbines.py: TidalTurbine.friction_coefficient", "thetis/turbines.py: TurbineFunctionalCallback", "thetis/shallowwater_eq.py: TurbineDragTerm"]}
{"id": "C121", "title": "Turbine definition files", "statement": "load_turbine returns options with the values of the file, rejects incomplete files, and leaves out the support structure if asked.", "quantifier": "all files, both kinds of farm, with and without support", "why_tests_cant": "the tests load one or two files and check some of the values", "anchors": ["thetis/turbines.py: load_turbine", "thetis/options.py: TidalTurbineOptions", "thetis/options.py: DiscreteTidalTurbineFarmOptions"]}
{"id": "C122", "title": "Logarithmic layer of the two-equation closure", "statement": "In unstratified flow the logarithmic velocity profile over a rough wall is a steady state of the closure for every selectable stability function: viscosity us*kappa*z, constant stress, production equal to dissipation, diffusion and sources of psi in balance, and the wall flux of psi that of the layer, with the von Karman constant of the bottom drag. In homogeneous shear the steady Richardson number is that of the options.", "quantifier": "all friction velocities, heights, exponents p, m, n, constants c1 < c2, all selectable stability functions and limiter settings, all orders of creating solvers in a process", "why_tests_cant": "tests compare one profile with a tolerance that hides the wrong Schmidt number, and never create two solvers with different closures in a process", "anchors": ["thetis/turbulence.py: GenericLengthScaleModel.__init__", "thetis/turbulence.py: GenericLengthScaleModel.postprocess", "thetis/turbulence.py: TKESourceTerm", "thetis/turbulence.py: PsiSourceTerm", "thetis/stability_functions.py: StabilityFunctionBase.compute_cmu0", "thetis/stability_functions.py: StabilityFunctionBase.compute_kappa", "thetis/stability_functions.py: StabilityFunctionBase.compute_sigma_psi", "thetis/options.py: GLSModelOptions.apply_defaults"]}
{"id": "C123", "title": "Every time integrator keeps the budget of totals", "statement": "Over a run of any length, a total (water volume, tracer mass) changes by the time step times the weighted rates at which the terms of the equation change it, and by nothing else but what the nonlinear solver leaves of the residual; so a total that the equation conserves is conserved, a constant source is added in full, and a source never removes anything. A state in which all terms balance is kept.", "quantifier": "all linear functionals of the solution, right-hand sides, tableaux, numbers of steps, solver tolerances and starting states, for all integrators on a fixed mesh", "why_tests_cant": "tests run few steps of a few schemes and compare totals with a tolerance", "anchors": ["thetis/rungekutta.py: ERKGeneric, ERKGenericShuOsher, DIRKGeneric, DIRKGenericUForm", "thetis/implicitexplicit.py: IMEXGeneric", "thetis/timeintegrator.py: ForwardEuler, CrankNicolson"]}
{"id": "C124", "title": "Reported mass of a depth-averaged tracer", "statement": "With check_tracer_conservation the two-dimensional solver reports the integral of tracer times water depth (of the variable itself in conservative form). In a closed basin the reported mass stays constant; with open boundaries it changes by the volume flux times the tracer that passes them; sources add the same mass in both forms.", "quantifier": "all meshes, velocities, elevations, bathymetries, tracers and boundary conditions of the discontinuous Galerkin discretisation", "why_tests_cant": "tests check conservation to a few digits for smooth flows; where the two equations disagree depends on jumps of all fields at once", "anchors": ["thetis/callback.py: TracerMassConservation2DCallback, ConservativeTracerMassConservation2DCallback", "thetis/tracer_eq_2d.py: HorizontalAdvectionTerm, HorizontalDiffusionTerm", "thetis/shallowwater_eq.py: HUDivTerm", "thetis/solver2d.py: FlowSolver2d.iterate"]}
{"id": "C125", "title": "Explicit advection with the slope limiter creates no new extrema", "statement": "With forward Euler and the slope limiter, a tracer of the two-dimensional model stays between the bounds of its initial values and of the values prescribed at the boundary, if each cell exports no more than its share of water in one step.", "quantifier": "all meshes, velocities, tracers, boundary values, time steps within the limit and numbers of steps", "why_tests_cant": "the bound concerns every cell and every flow; tests compare norms for a few smooth or rotating tracers", "anchors": ["thetis/limiter.py: VertexBasedP1DGLimiter.apply", "thetis/tracer_eq_2d.py: HorizontalAdvectionTerm", "thetis/coupled_timeintegrator_2d.py: CoupledTimeIntegrator2D.advance", "thetis/solver2d.py: FlowSolver2d.create_equations"]}
{"id": "C126", "title": "Water volume over time steps with wetting and drying", "statement": "With wetting and drying, a time step of the two-dimensional model with an implicit integrator changes the volume of water by what enters through open boundaries and from sources; in a closed basin the volume never changes.", "quantifier": "all meshes, bathymetries, wetting parameters, states, time steps, implicitness parameters, Butcher tables with the last row as weights, and numbers of steps", "why_tests_cant": "the mass term is nonlinear; the balance must hold for every state of wetting and both kinds of solver, while tests watch a few basins with a tolerance", "anchors": ["thetis/timeintegrator.py: CrankNicolson", "thetis/rungekutta.py: DIRKGenericUForm", "thetis/shallowwater_eq.py: BathymetryDisplacementMassTerm", "thetis/options.py: use_semi_implicit_linearization"]}
{"id": "C127", "title": "Implicit time steps do not create energy", "statement": "For waves in a closed basin with rotation, friction, turbines and viscosity, and for tracers carried and mixed by the flow, an implicit time step of any length does not increase the energy (the square of the tracer); Crank-Nicolson with one half keeps the energy of waves without friction exactly, and its systems have exactly one solution.", "quantifier": "all meshes, function spaces, coefficients, states, lengths of time steps, implicitness parameters of one half or more, and numbers of steps", "why_tests_cant": "stability for every time step and every state of every mesh is no finite experiment; a run that stays bounded says nothing about the next", "anchors": ["thetis/timeintegrator.py: CrankNicolson", "thetis/rungekutta.py: DIRKGeneric, DIRKGenericUForm, BackwardEuler, DIRK22, ESDIRKTrapezoid", "thetis/shallowwater_eq.py: ShallowWaterEquations, ModeSplit2DEquations", "thetis/options.py: implicitness_theta, use_semi_implicit_linearization"]}
{"id": "C128", "title": "Explicit time steps below the CFL limit do not create energy", "statement": "For linear equations that do not create energy (waves in a closed basin, tracers carried and mixed by the flow) there is a limit below which an explicit time step does not increase the energy: for SSPRK33 a CFL number of one (the square root of three for equations that keep energy), for ERKLSPUM2 of 6/5; every shorter step is within the limit, and on every mesh the limit is positive.  Forward Euler, the explicit midpoint rule, the two-stage scheme and ERKLPUM2 obey such a limit only where enough energy is taken out.", "quantifier": "all linear equations without sources of energy, meshes, function spaces of finite dimension, states, time steps and numbers of steps", "why_tests_cant": "whether energy grows by a tiny factor per step, for some state of some mesh, cannot be seen in runs of a few steps", "anchors": ["thetis/rungekutta.py: ERKGeneric, ERKGenericShuOsher, SSPRK33, ERKLSPUM2, ERKLPUM2, ERKMidpoint", "thetis/timeintegrator.py: ForwardEuler, SSPRK22ALE", "thetis/solver2d.py: create_timestepper"]}
{"id": "C129", "title": "Time integrators converge with their order", "statement": "For equations in weak form that are Lipschitz continuous near a smooth solution, the error of a run at any time up to the end is at most a constant times a power of the time step: the first for ForwardEuler and BackwardEuler, the second for CrankNicolson with theta 1/2, DIRK22 and DIRKLSPUM2, the third for SSPRK33 and DIRK33 (up to the rounding of its coefficients), for fields and boundary values that change with time.  With a nonlinear equation, use_semi_implicit_linearization reduces the order to one, and so do boundary values that change with time for CrankNicolson.", "quantifier": "all equations in weak form, function spaces of finite dimension, smooth solutions, end times, short time steps and numbers of steps; for waves and tracers, all meshes and initial states", "why_tests_cant": "a convergence test sees a few time steps for one smooth flow with steady forcing; the order for all flows, and its loss under a combination of options, is an asymptotic statement", "anchors": ["thetis/timeintegrator.py: ForwardEuler, CrankNicolson, advance", "thetis/rungekutta.py: DIRKGeneric, DIRKGenericUForm, ERKGeneric, ERKGenericShuOsher, BackwardEuler, DIRK22, DIRK33, SSPRK33", "thetis/options.py: use_semi_implicit_linearization"]}
{"id": "C130", "title": "Implicit-explicit methods converge with the order of their pair of tables", "statement": "For equations in weak form with implicit and explicit terms that are Lipschitz continuous near a smooth solution, the error of a run of an IMEX method at any time up to the end is at most a constant times the time step, and the square of the time step for IMEXLPUM2 (SSPIMEX), IMEXLSPUM2 and IMEXMidpoint when the coefficients of implicit terms do not depend on the solution; fields and boundary values may change with time.  When they do, as for quadratic drag, the order is one, whether or not use_semi_implicit_linearization is set, because the coefficients are those of the explicit part of the stage.  Steps exist for linear implicit terms that add no energy.", "quantifier": "all pairs of implicit and explicit equations in weak form, function spaces of finite dimension, smooth solutions, end times, short time steps and numbers of steps; for waves with viscosity, all meshes and initial states", "why_tests_cant": "the order of a pair of tables has coupling conditions that no test of either table sees, and a run with a fixed time step cannot tell order one from order two", "anchors": ["thetis/implicitexplicit.py: IMEXGeneric, solve_stage, get_final_solution, IMEXLPUM2, IMEXLSPUM2, IMEXMidpoint, IMEXEuler", "thetis/rungekutta.py: DIRKGeneric, ERKGeneric", "thetis/shallowwater_eq.py: add_momentum_terms, add_continuity_terms"]}
{"id": "C131", "title": "A uniform tracer stays uniform over coupled 3D runs on a moving mesh", "statement": "Salinity or temperature that is uniform at the start, with the same value prescribed at the open boundaries and no source, has that value at every point after any number of steps of CoupledTwoStageRK and CoupledLeapFrogAM3, with and without moving mesh, limiter and implicit vertical diffusion, whatever elevations and velocities the 2D solver and the momentum solver compute, as long as no node falls dry.", "quantifier": "all meshes with any bathymetry and layers, 2D and momentum solvers, elevations that keep the columns wet, time steps, options, values and numbers of steps", "why_tests_cant": "consistency of tracer and volume depends on the order of mesh update, assembly and solve in each stage and on the mesh velocity of each stage; a test sees one motion of the surface up to a tolerance", "anchors": ["thetis/coupled_timeintegrator.py: CoupledTwoStageRK, store_elevation, compute_mesh_velocity, advance, CoupledLeapFrogAM3", "thetis/timeintegrator.py: SSPRK22ALE, LeapFrogAM3", "thetis/utility3d.py: ALEMeshUpdater", "thetis/tracer_eq.py: TracerEquation"]}
{"id": "C132", "title": "The amount of tracer changes over coupled 3D runs only by what enters", "statement": "The integral of salinity or temperature over the moving mesh after any number of steps of CoupledTwoStageRK is that at the start plus the time step times the sum of the means of the inflow at both stages, and for CoupledLeapFrogAM3 the sum of the inflow of the predicted states: what enters through open sides, through the surface relative to its motion, from sources and by the horizontal diffusion terms at surface and bottom.  Limiter, implicit vertical diffusion and the motion of the mesh change nothing.  In a closed basin whose surface moves with the water the amount is constant.", "quantifier": "all meshes, bathymetries, elevations that keep the columns wet, velocities, 2D and momentum solvers, boundary values, sources, options, time steps and numbers of steps", "why_tests_cant": "tests check the amount at the end of one run up to a tolerance; whether each stage on the moving mesh adds exactly its fluxes is a statement about all runs", "anchors": ["thetis/coupled_timeintegrator.py: CoupledTwoStageRK, CoupledLeapFrogAM3", "thetis/timeintegrator.py: SSPRK22ALE, LeapFrogAM3", "thetis/tracer_eq.py: TracerEquation", "thetis/callback.py: TracerMassConservationCallback, ScalarConservationCallback"]}
{"id": "C133", "title": "The amount of tracer in a closed basin is constant", "statement": "In a basin without open boundaries, sources and diffusive fluxes, whose 2D mode keeps the volume, the integral of salinity or temperature over the mesh after any number of steps of CoupledTwoStageRK or CoupledLeapFrogAM3 is that at the start.", "quantifier": "all closed basins, initial tracers and elevations, time steps and numbers of steps", "why_tests_cant": "the tests for closed basins (test/tracerEq/test_consistency.py) accept a change of 1e-4 or more and cannot tell round-off from a flux that the time stepping adds", "anchors": ["thetis/coupled_timeintegrator.py: CoupledTwoStageRK, CoupledLeapFrogAM3", "thetis/timeintegrator.py: SSPRK22ALE, LeapFrogAM3", "thetis/rungekutta.py: ESDIRKTrapezoid", "thetis/utility3d.py: VerticalVelocitySolver, ALEMeshUpdater"]}
{"id": "C134", "title": "The schemes of the 3D solver converge with second order", "statement": "With SSPRK22ALE (also on a mesh that moves in time) and with LeapFrogAM3 (started by initialize, which has no earlier value) the error at a fixed time is bounded by a multiple of the error at the start plus dt squared, for smooth solutions of equations with forcings that may change in time.", "quantifier": "all equations with a Lipschitz right-hand side near the solution, three times differentiable solutions, mass operators, final times and small enough time steps", "why_tests_cant": "test/time_integration/test_convergence_ode.py measures a slope over a few steps on one linear system without forcings and accepts a tolerance; an order is a statement on all equations and all steps towards zero", "anchors": ["thetis/timeintegrator.py: SSPRK22ALE, LeapFrogAM3"]}
{"id": "C135", "title": "Water at rest stays at rest in the 3D solver", "statement": "Started with a level surface, no velocity and uniform density, over any bathymetry and with closed boundaries or boundaries that prescribe the same elevation or no flow, the coupled solver keeps the elevation, the mesh, zero velocities and all tracers, over any number of steps, with both coupled time integrators, moving mesh or not, limiters, implicit vertical diffusion, friction, viscosity, Coriolis force and whatever the turbulence model does.", "quantifier": "all bathymetries, levels, meshes, options, boundary conditions without flow, turbulence and viscosity fields, numbers of steps", "why_tests_cant": "a test of a lake at rest runs one mesh for a few steps and accepts rounding errors; here a small wrong term in one of the couplings (mesh velocity, split residual, baroclinic head) shows only over certain bathymetries or after many steps", "anchors": ["thetis/coupled_timeintegrator.py: CoupledTwoStageRK, CoupledLeapFrogAM3", "thetis/momentum_eq.py: MomentumEquation", "thetis/tracer_eq.py: TracerEquation", "thetis/shallowwater_eq.py: ShallowWaterEquations"]}
{"id": "C136", "title": "The 3D mesh holds the water volume of the 2D mode over coupled runs", "statement": "With a moving mesh the volume of the 3D mesh, as the volume3d callback reports it, equals after every step the volume of the 2D mode, as volume2d reports it; both equal the initial volume plus what has entered through the open boundaries and volume sources of the 2D mode, and stay constant in closed basins. This holds for both coupled time integrators and does not depend on the 3D velocity, tracers, limiters, turbulence and implicit solvers. Without a moving mesh the mesh keeps its volume.", "quantifier": "all meshes, numbers and distributions of layers, bathymetries, initial elevations, boundary conditions, 3D flows, numbers of steps", "why_tests_cant": "tests watch the volume for a few steps of one basin with a tolerance; a drift between the 2D mode and the mesh, from a projection or a stage that moves the mesh to another elevation, needs other meshes, open boundaries or long runs to show", "anchors": ["thetis/coupled_timeintegrator.py: CoupledTwoStageRK.advance, CoupledLeapFrogAM3.advance", "thetis/utility3d.py: ALEMeshUpdater.update_mesh_coordinates", "thetis/callback.py: VolumeConservation3DCallback", "thetis/utility.py: comp_volume_3d"]}
{"id": "C137", "title": "The weak form of the shallow water equations is that of the documented equations", "statement": "For smooth fields whose boundary values are those prescribed, the residual of ShallowWaterEquations for any test function is the integral of the right hand side of the documented free surface and momentum equations times the test function: u·grad(u) (only with the nonlinear terms), g grad(eta), div(H u), the viscous stress with the gradient of the depth, rotation, wind, atmospheric pressure, drags, turbines and sources. The facet terms, penalties and Lax-Friedrichs terms vanish. So a smooth solution of the documented equations satisfies the discrete ones.", "quantifier": "all meshes, test functions with or without jumps, element families, options, coefficients, boundary conditions, smooth flows", "why_tests_cant": "a test compares one solution with a tolerance; a wrong sign or factor in a term that is small there, or a boundary flux that is only consistent for some boundary keys, passes", "anchors": ["thetis/shallowwater_eq.py: ExternalPressureGradientTerm, HUDivTerm, HorizontalAdvectionTerm, HorizontalViscosityTerm, ShallowWaterEquations"]}
{"id": "C138", "title": "The weak forms of the tracer equations are those of the documented equations", "statement": "For a smooth tracer in a smooth flow that agrees with the boundary data, the residual of the tracer equations for any test function is the integral of the documented terms times the test function: u·grad(T) for the non-conservative and div(u q) for the conservative 2D form, div(mu grad(T)), and in 3D div_h(u T) + d(w T)/dz with w relative to the moving mesh, horizontal and vertical diffusion and sources.", "quantifier": "all meshes, test functions, velocities, boundary conditions, options, smooth tracers", "why_tests_cant": "tests compare errors with a tolerance in a few flows, most of them free of divergence, where the forms do not differ", "anchors": ["thetis/tracer_eq_2d.py: HorizontalAdvectionTerm, ConservativeHorizontalAdvectionTerm, HorizontalDiffusionTerm", "thetis/tracer_eq.py: HorizontalAdvectionTerm, VerticalAdvectionTerm, TracerEquation"]}
{"id": "C139", "title": "The weak form of the 3D momentum equation is that of the documented equation", "statement": "For a flow that satisfies the documented 3D momentum equation, with velocities and viscous fluxes that are continuous between the cells, the discrete residual equals the weak form of the documented acceleration for all test functions, continuous or not: advection by the horizontal and the mesh-relative vertical velocity, both viscosities, internal pressure gradient, Coriolis force of the deviation, drag, source. The viscous stress is the wind stress over the reference density at the surface and the quadratic friction of the total velocity at the bottom. Stabilization and penalty terms vanish on such flows, whatever their parameters are.", "quantifier": "all extruded meshes whose layers are stacked vertically, moving or not, all flows without jumps, test functions, boundary conditions that fit the flow, with and without mode splitting", "why_tests_cant": "convergence tests see sign errors and missing facet terms only in the flows they use and only up to the order they measure; terms that vanish in the test cases, on sloping bottoms or moving meshes, stay unseen", "anchors": ["thetis/momentum_eq.py: HorizontalAdvectionTerm, VerticalAdvectionTerm, HorizontalViscosityTerm, VerticalViscosityTerm, BottomFrictionTerm, SourceTerm, MomentumEquation"]}
{"id": "C140", "title": "The equations do not depend on numbering, names of facet sides and axes", "statement": "Renumbering cells and facets, exchanging the names of the two sides of interior facets (as another partition between processes does), and turning or mirroring the horizontal axes leaves all residuals unchanged, if vectors are turned with the axes and the Coriolis parameter changes its sign with mirrored axes. So a flow solves the discrete equations in one description if and only if it does in the other: shallow water equations with all terms and boundary conditions, depth-averaged tracers in both forms, 3D tracers, 3D momentum, vertical velocity, internal pressure gradient.", "quantifier": "all meshes with opposite normals of the sides of facets, all orthogonal changes of axes (about the vertical in 3D), renumberings, exchanged facets, fields, options, boundary conditions, test functions", "why_tests_cant": "a parallel run or a rotated domain can be compared with a serial run for some cases within a tolerance only; a term that uses the plus side alone, or components instead of inner products, shows only for flows with jumps or along other directions", "anchors": ["thetis/shallowwater_eq.py", "thetis/tracer_eq_2d.py", "thetis/conservative_tracer_eq_2d.py", "thetis/tracer_eq.py", "thetis/momentum_eq.py", "thetis/utility3d.py: VerticalVelocitySolver"]}
{"id": "C141", "title": "The equations do not depend on the units of length, time, density and tracer", "statement": "If the mesh, all fields, boundary values and the physical constants are converted to other units of length, time, density and tracer concentration, every residual is multiplied by its own unit. So a state solves a time step in one system of units if and only if the converted state solves the converted step: shallow water equations with all terms and boundary conditions, drag coefficients from Manning and Nikuradse parameters, depth-averaged tracers in both forms, 3D tracers, 3D momentum with the drag from the roughness length, vertical velocity, internal pressure gradient. No term holds a hidden length or time, and upwinding, wetting and drying, Riemann solutions at open boundaries and penalties react to the flow, not to its numbers.", "quantifier": "all meshes, fields, options, boundary conditions, test functions, and all positive conversion factors", "why_tests_cant": "a test compares numbers in one system of units with tolerances; a missing power of the depth, a length added to an area or a hard-coded threshold passes every test whose reference was computed with the same code", "anchors": ["thetis/shallowwater_eq.py", "thetis/tracer_eq_2d.py", "thetis/conservative_tracer_eq_2d.py", "thetis/tracer_eq.py", "thetis/momentum_eq.py", "thetis/utility3d.py: VerticalVelocitySolver", "thetis/utility.py: DepthExpression", "thetis/physical_constants.py"]}
{"id": "C142", "title": "Facet terms are left out only where nothing can jump", "statement": "The flags by which the equations add facet terms come from the name of the finite element. For every accepted combination of element_family, tracer_element_family and cell type, on plane and extruded meshes, the flags say what the element does: a space called continuous has functions without jumps, a space called hdiv has functions with continuous normal components. Where facet terms are left out they are zero for all functions of the space, so that no exchange between cells is lost.", "quantifier": "all cell types, element families, vector and scalar spaces, meshes, fields and test functions", "why_tests_cant": "tests run a few element families on one mesh; a wrong flag for another combination gives a run without exchange between cells that still completes", "anchors": ["thetis/utility.py: element_continuity, get_extruded_base_element, get_functionspace", "thetis/solver2d.py: create_function_spaces", "thetis/solver.py: create_function_spaces", "thetis/tracer_eq_2d.py", "thetis/shallowwater_eq.py: HUDivTerm"]}
{"id": "C143", "title": "Tracers and linear waves obey superposition", "statement": "In a given flow a tracer with combined sources, boundary values and initial values is the same combination of the single tracers, in 2D (both forms, with and without SUPG) and in 3D: tracers tagged by their source add up to the tracer of all sources. With use_nonlinear_equations off and without squares of the velocity in the friction, the response of elevation and velocity to combined forcings, boundary values and initial values is the combination of the responses. This holds for every time integrator and for whole runs.", "quantifier": "all meshes, flows, coefficients, boundary dictionaries, states, test functions, Butcher tables, time steps and numbers of steps", "why_tests_cant": "tests compare a few runs; that no term, facet flux, boundary branch or stage of an integrator breaks linearity is a statement about all of them", "anchors": ["thetis/tracer_eq_2d.py", "thetis/tracer_eq.py", "thetis/shallowwater_eq.py", "thetis/timeintegrator.py", "thetis/rungekutta.py", "thetis/limiter.py"]}
{"id": "C144", "title": "Explicit runs have a finite domain of dependence", "statement": "In the 2D model with discontinuous elements the tendencies of tracers, velocity and elevation in a cell depend on the fields in this cell and in the cells with a common facet only, for all terms, options and boundary conditions. After one step of an explicit integrator (ForwardEuler, SSPRK33, any Butcher table) without wetting and drying a cell depends on the cells at most as many facets away as the method has stages, and after a run on those at most steps times stages away: a change of the initial state further away has no effect at all. The slope limiter reads the cell and the cells that share a vertex.", "quantifier": "all meshes, partitions of the quadrature points into cells, fields, coefficients, boundary dictionaries, tables, time steps, numbers of steps", "why_tests_cant": "tests compare runs on a few meshes; that no term reads a value from beyond the neighbours (as halo exchange on distributed meshes assumes) concerns all terms, options and meshes", "anchors": ["thetis/tracer_eq_2d.py", "thetis/shallowwater_eq.py", "thetis/rungekutta.py", "thetis/timeintegrator.py", "thetis/limiter.py"]}
{"id": "C145", "title": "Every time step has exactly one result", "statement": "With function spaces that the quadrature rule tells from zero, an explicit step (ForwardEuler, SSPRK33, SSPRK22ALE, any Butcher table) of the tracer equations in 2D and 3D, of the shallow water equations without wetting and drying and of the 2D mode has exactly one result from every state, for every time step. An implicit step (CrankNicolson with any parameter, any DIRK table in both forms) with coefficients from the old solution has exactly one result for all but finitely many time steps, thus for all that are short enough, with any sources and boundary conditions except that a boundary with flux alone needs linear equations; for tracers that are carried and diffused and for linear waves in a closed basin, with any forcing, it has exactly one for every time step. A start therefore determines the run.", "quantifier": "all meshes, quadrature rules, finite-dimensional spaces, coefficients, flows, sources, boundary dictionaries, tables, parameters, time steps, numbers of steps", "why_tests_cant": "tests solve single systems; that no system is singular for the terms, options and boundary conditions a user may combine, and that the results do not depend on the solver, concerns all of them", "anchors": ["thetis/timeintegrator.py", "thetis/rungekutta.py", "thetis/tracer_eq_2d.py", "thetis/tracer_eq.py", "thetis/shallowwater_eq.py"]}
{"id": "C146", "title": "Free surface of the non-hydrostatic model", "statement": "The momentum equation and the free surface equation together are the shallow water equations. A time step of the two-dimensional non-hydrostatic model with free surface update changes the volume of water by the flow of the corrected velocity through open boundaries and by sources, whatever the Poisson solver returns; in a closed basin the volume never changes, also with wetting and drying if the nonlinear solver is used and with multi-stage integrators. The free surface step has exactly one result, and if the Poisson solver leaves the velocity unchanged, the step is that of the hydrostatic model.", "quantifier": "all meshes, states, velocities returned by the Poisson solver, hydrostatic integrators, boundary dictionaries, parameters, time steps, numbers of steps", "why_tests_cant": "the elevation is solved for twice per step, by two different equations with fields that are updated in between; tests compare single wave profiles with a tolerance", "anchors": ["thetis/shallowwater_eq.py: FreeSurfaceEquation", "thetis/shallowwater_eq.py: ShallowWaterMomentumEquation", "thetis/solver2d.py: get_fs_timestepper", "thetis/coupled_timeintegrator_2d.py: NonHydrostaticTimeIntegrator2D"]}
{"id": "C147", "title": "The weak forms of suspended sediment and bed are those of the documented equations", "statement": "For smooth fields that fit the boundary conditions the residual of the sediment equation is the integral of advection, diffusion, erosion and deposition of the documented equation times the test function, and that of the Exner equation is the integral of exchange, bedload divergence and slide times a continuous test function; in both forms of the sediment the bed loses the erosion and gains the deposition coefficient times the concentration. A bed level that solves the documented equation solves the discrete equations.", "quantifier": "all meshes with an exact divergence rule for the fields, all fields, test functions, boundary conditions, options of the sediment model", "why_tests_cant": "the signs, the unknown (bathymetry, not bed level) and the factors of depth, porosity and acceleration are conventions spread over three files; tests compare with bed profiles of the code itself or of experiments, with tolerances", "anchors": ["thetis/exner_eq.py: ExnerSourceTerm", "thetis/exner_eq.py: ExnerBedloadTerm", "thetis/exner_eq.py: ExnerSedimentSlideTerm", "thetis/sediment_eq_2d.py: SedimentEquation2D"]}
{"id": "C148", "title": "Errors of solvers, initial values and forcing do not grow; they add up at most", "statement": "For linear waves in a closed basin with any wind, pressure and sources, and for tracers in a steady flow with sources and boundary fluxes, two runs of CrankNicolson (implicitness between one half and one) never move farther apart in energy than their distance at the start plus the sum of the residuals left by the solver, plus the time times the largest error of the sources. With SSPRK33 and a CFL number of at most one each step adds at most 5/3 of the tolerance of the mass matrix solves.", "quantifier": "all meshes, function spaces, time steps, numbers of steps, forcings that change in time, residuals, initial states", "why_tests_cant": "an accumulation of errors is a statement about all runs of any length; a test compares one run with one reference up to a tolerance chosen after seeing the result", "anchors": ["thetis/timeintegrator.py:196-241", "thetis/rungekutta.py:845-960", "thetis/shallowwater_eq.py:844-925", "thetis/tracer_eq_2d.py:450-490"]}
{"id": "C149", "title": "The errors of runs are bounded by the initial tendencies, whatever the mesh", "statement": "For linear waves in a closed basin and tracers in a steady flow without divergence, a run of CrankNicolson is at any time within time * ((theta - 1/2) * dt * |second tendency| + dt^2/12 * |third tendency|) of the solution in continuous time that starts from the same state, for any time step; a run of SSPRK33 with a CFL number of at most one is within time * dt^3/24 * |fourth tendency|. The tendencies are those of the initial state. With forcing that changes in time the same holds with the largest time derivatives of the solution.", "quantifier": "all meshes, function spaces, initial states, time steps, implicitness parameters between one half and one, numbers of steps", "why_tests_cant": "the constant of a convergence rate that does not grow when the mesh is refined is a statement about all meshes and all time steps at once; a convergence test estimates a rate on a few", "anchors": ["thetis/timeintegrator.py:196-241", "thetis/rungekutta.py:845-960", "thetis/shallowwater_eq.py:844-925", "thetis/tracer_eq_2d.py:450-490"]}
{"id": "C150", "title": "Time series are read along the dimension of time", "statement": "A NetCDFTimeSeriesReader returns for every requested variable, in the order of the list, exactly the values stored at the requested time index, whatever the position of the time dimension and whatever was read before; files without the time dimension are refused.", "quantifier": "all files, variables with the same dimensions, positions of the time dimension, sequences of earlier calls, time indices", "why_tests_cant": "the position of the time dimension is remembered between calls, so a result depends on the sequence of files that were read; a test reads one or two files of one layout", "anchors": ["thetis/interpolation.py:259-306 NetCDFTimeSeriesReader"]}
{"id": "C151", "title": "Projection of a field restricted to a subdomain", "statement": "SubdomainProjector.project gives the unique function of the output space whose integral over the mesh is that of the expression over the subdomain, whose mean square is no larger, and which adds up over disjoint subdomains and sums of expressions; in a discontinuous space it is zero in the cells outside of the subdomain and reproduces expressions of that space inside.", "quantifier": "all meshes with quadrature, function spaces, expressions, sets of subdomain ids", "why_tests_cant": "the claim is about every mesh, subdomain and expression; a test compares a few values on one mesh", "anchors": ["thetis/utility.py:543-582 SubdomainProjector"]}
{"id": "C152", "title": "The implicit vertical step of the 3D momentum equation", "statement": "With use_implicit_vertical_diffusion, each advance of mom_impl has exactly one result for a time step of any length; without wind stress the kinetic energy of the whole velocity does not grow, with wind it grows by no more than the work of the wind minus the loss to bottom friction; the momentum of every water column changes by wind stress, bottom friction and linear drag only; a velocity that does not vary in the vertical stays as it is without those; without bottom friction the difference of two velocities does not grow.", "quantifier": "all extruded meshes, velocities, vertical viscosities that are not negative, drag coefficients or roughness lengths, wind stresses, time steps, numbers of steps, values of semi_implicit", "why_tests_cant": "stability for every time step and every profile of viscosity cannot be sampled; tests run a few time steps of one setup", "anchors": ["thetis/momentum_eq.py:394-569 VerticalViscosityTerm, BottomFrictionTerm, LinearDragTerm, SourceTerm", "thetis/coupled_timeintegrator.py:199-236 _create_mom_integrator", "thetis/coupled_timeintegrator.py:549-552", "thetis/solver.py:684-694", "thetis/rungekutta.py:714-716 BackwardEuler"]}
{"id": "C153", "title": "Daily files are dated from their names", "statement": "DailyFileTimeSearch finds every file that is named after the pattern, gives it exactly the date it is named after (tags may be used several times), sorts the files by date, and refuses files that are not named after the pattern.", "quantifier": "all patterns with the three tags and no special characters, all dates of the years 1 to 9999, all sets of files", "why_tests_cant": "the pattern is turned into a glob and into a regular expression that is searched for anywhere in the name; a test tries a few names of one pattern", "anchors": ["thetis/interpolation.py:676-743 DailyFileTimeSearch.__init__, _find_files, _parse_date"]}
{"id": "C154", "title": "Fields of a solver are checked, named and found under one name", "statement": "In the dictionary of the fields of a solver, fields['x'] and fields.x give the same field; assignment either way has the same effect; only Functions and Constants that have metadata or are of a mixed space are stored, a refused assignment changes nothing, and every stored Function has its key as name. add_new_field stores a Function under a new label with the metadata given, and refuses labels in use or with spaces without a trace.", "quantifier": "all sequences of assignments of items and attributes, deletions and updates, all keys that are no data descriptors of dict, all objects", "why_tests_cant": "the same Function can be assigned to several keys in any order, and dict has ways of storing that do not call __setitem__; a test tries a few assignments", "anchors": ["thetis/utility.py:89-99 AttrDict", "thetis/utility.py:102-136 FieldDict", "thetis/solver.py:616-646 FlowSolver.add_new_field", "thetis/solver2d.py:355-385 FlowSolver2d.add_new_field"]}
{"id": "C155", "title": "The time step of the 3D solver reaches all its integrators", "statement": "After create_timestepper every integrator of the 3D solver, of the 2D mode as well, holds the step of the solver in every part; the step is positive, not longer than asked for and a whole fraction of the export interval; set_dt takes a step of the 2D mode that is an integer fraction of the 3D step, and the option timestep_2d sets the step of the 2D mode.", "quantifier": "all requested steps, CFL limits and export intervals that are positive, automatic or not, all sets of integrators", "why_tests_cant": "the step passes through two fits, a tolerance and a loop over a dictionary; a test runs with one request", "anchors": ["thetis/coupled_timeintegrator.py:350-367 CoupledTimeIntegrator.set_dt", "thetis/solver.py:333-405 FlowSolver.set_time_step", "thetis/solver.py:840-858 FlowSolver.create_timestepper", "thetis/options.py:1122-1128 timestep_2d"]}
{"id": "C156", "title": "Time series written by a run are the observations an inversion reads", "statement": "After a 2D run with TimeSeriesCallback2D, load_scalar_observation_data gives for every station asked for, in that order, its coordinates, the times at which it was evaluated and the values of the field at these times, and nothing of other stations. With the controls of that run, the misfit of the inversion at the times of the run is therefore zero.", "quantifier": "all sets of callbacks, all sequences of evaluations in any order, all files that were there before, all selections of stations", "why_tests_cant": "writer and reader build the names of files in two places, and callbacks share a directory; a test writes and reads a few stations with simple names", "anchors": ["thetis/callback.py:629-741 TimeSeriesCallback2D", "thetis/callback.py:223-239 DiagnosticCallback._create_hdf5_file", "thetis/inversion_tools.py:733-773 StationObservationManager.load_scalar_observation_data", "thetis/inversion_tools.py:876-913 StationObservationManager.eval_cost_function"]}
{"id": "C157", "title": "Options that are fields, dates or solver parameters hold what the solver needs", "statement": "Options for scalar fields only ever hold scalars (or None where allowed), options for vector fields vectors of the right length, constants and coefficients scalars, dates a time zone; anything else is refused with an exception and leaves the options as they were.", "quantifier": "all histories of assignments and updates, with exceptions in between, all objects", "why_tests_cant": "a test assigns a few wrong objects to a few options; histories and shapes are unbounded", "anchors": ["thetis/configuration.py:147-228", "thetis/configuration.py:262-275 OptionsBase.update", "thetis/options.py"]}
{"id": "C158", "title": "Output directories exist before any process goes on", "statement": "create_directory returns on all processes or raises an exception on all of them; as soon as it has returned on one, the directory exists for all; it ends in every schedule and leaves everything else as it was.", "quantifier": "all numbers of processes, all schedules, all file systems, other programs that create files meanwhile", "why_tests_cant": "a test runs one schedule, mostly on one process", "anchors": ["thetis/utility.py:260-273 create_directory", "thetis/exporter.py:50 ExporterBase.__init__", "thetis/solver.py:658 create_equations", "thetis/inversion_tools.py:206-207 InversionManager.initialize"]}
{"id": "C159", "title": "Tests of inversions pass for right gradients and fail for wrong ones", "statement": "InversionManager.taylor_test raises an exception if and only if the gradient of the reduced functional is wrong at the current controls; consistency_test raises one if and only if the functional is not recomputed as it was.", "quantifier": "all functionals, gradients and controls", "why_tests_cant": "these are tests themselves: whether they can miss something is not seen from running them", "anchors": ["thetis/inversion_tools.py:567-577 InversionManager.consistency_test", "thetis/inversion_tools.py:579-594 InversionManager.taylor_test"]}
