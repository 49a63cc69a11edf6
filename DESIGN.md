# Formal model of maikel/FiniteVolumeSolver in Lean 4 - design

## Approach

The code is modelled function by function as total, computable Lean functions
(`lean/Verif/Model/*.lean`). Every definition cites the file and lines of `/repo` it models and
states its simplifications. Specifications that a property needs and that are not part of the
program are in `lean/Verif/Spec/*.lean`; helper lemmas are in `lean/Verif/Lemmas/*.lean`; the property
theorems, with non-vacuity examples beside them, are in `lean/Verif/Props/*.lean`.

Global modelling conventions

* **Floating point** is replaced by exact arithmetic over an arbitrary linearly ordered field `K`
  (or ℝ where a square root is needed). Rounding, overflow, NaN and infinities are *not* modelled,
  except where a definition says so (e.g. padding lanes, `numeric_limits::max` as `⊤`/`none`).
* **Integers** are `Int`/`Nat` (no wrap-around) unless a definition says otherwise.
* **Undefined behaviour** (out-of-range access, division by zero on integers, null dereference) is an
  explicit outcome (`none` / `Except.error`), never silently totalised.
* **Template parameters and user-supplied classes** (equations, base flux methods, level integrators,
  outputs, solvers) are Lean parameters; a theorem that holds "for every solver" quantifies over them.
* **Data parallelism**: MPI reductions are modelled as running on one rank (`MPI_Allreduce(MIN)` is the identity);
  OpenMP loops as sequential loops; SIMD as chunks of an arbitrary width `w > 0`.
* **Wrong code stays wrong**: when the code violates its property the model keeps the code's behaviour, the
  negation is proved with a concrete witness, and the part that does hold is proved with the suffix `_partial`.

## Trusted base

* Lean 4.33.0's kernel and the Mathlib definitions that occur in theorem statements.
* Axioms: at most `propext`, `Classical.choice`, `Quot.sound` (checked with `#print axioms` for every property theorem;
  see `lean/Verif/Audit.lean`). No `sorry`, no `admit`, no `native_decide`, no `bv_decide`, no own axioms.
* The correspondence between the Lean model and the C++ text, established by reading only (no execution is possible here).
* The external libraries (AMReX, SAMRAI, Boost, Eigen, MPI, Cantera, Python) are not modelled; where their
  behaviour matters (e.g. `FluxRegister`, `average_down`) the assumed contract is written as a definition in the model.

## Properties: what is modelled and how it is proved

* **C01 The run loop never moves time backwards and never passes the final time** - RunSimulation as a fuelled step machine over an arbitrary solver (a state type with `prepare`, `stableDt`, `advance`, `post`, `time`, `cycles`, `copy`). Invariant over the recorded trace. *Status: proved.*
* **C02 The run loop stops only for a documented reason, and does stop** - Same machine: exit analysis, plus a well-founded progress measure for termination. *Status: proved.*
* **C03 Attempted step sizes respect CFL, the final time, the next output time and the failure estimate** - Same machine: invariant on every recorded attempt. *Status: proved.*
* **C04 A failed time step is completely undone before it is retried** - Same machine for the grid data; the AMReX context (level data vector, feedback, user dt, options) is modelled separately with its actual copy constructor; the negation is proved for callbacks and for the level data accessed by GetCycles. *Status: partial.* Proved for every solver whose copy is faithful; rollback_undefined shows that with the AMReX context and a cycle limit the retry reads undefined clocks, and C46 lists what its copy loses.
* **C05 No scheduled output time is skipped** - `fmod` as `t - I*floor(t/I)` for t>=0; algebraic lemma on NextOutputTime/ShallOutputNow, then lifted to the run loop. *Status: proved.*
* **C06 An output is written once per reached state** - False of the code after a failed first step: witness; partial theorem for runs without failures. *Status: partial.* The property is false of the code: a failed attempt makes an output fire twice (witness). The partial theorem covers runs without a failed attempt.
* **C07 A combination of outputs behaves as the union of its members** - List model of outputs; equations with min / any / filter. *Status: proved.*
* **C08 Output factory: first registration wins, unknown names give no output, per-output options win over shared defaults** - Association-list model of std::map::emplace; induction over registration history. *Status: proved.*
* **C09 Splitting methods advance every operator by exactly the requested time and stop at the first failure** - Operators as functions `K -> State -> Except Err State`; the splitting as combinators; trace semantics by induction on the operator list. *Status: proved.*
* **C10 Directional splitting visits every direction exactly once and alternates the order** - Index arithmetic; permutation proof for every rank. *Status: proved.*
* **C11 Subcycling advances every level by exactly the coarse step** - AdvanceLevel as recursion over the list of remaining levels, emitting a trace of events; induction over the list. *Status: proved.*
* **C12 Coarse step sizes and error estimates are scaled consistently between levels** - Same; per-level stable step as arbitrary function; scaling lemma. *Status: proved.*
* **C13 A level is never updated with a step larger than its stable step size** - The level integrator loop over split directions, for every splitting method, with the fluxes' stable step recomputed per direction; induction over the schedule, failure as an explicit outcome. *Status: proved.*
* **C14 After a successful hierarchy step all levels agree on the time** - Level bookkeeping folded over the event trace of C11. *Status: partial.* The property is false with four or more levels and a regrid in the middle of a step (witness). Proved: all levels when the grids do not change, the coarse level always.
* **C15 The conservative update conserves** - Strided memory as a function of addresses, in-place update of a view of any rank; telescoping sums over lines. *Status: proved.* Any rank, strides, direction; in-place update allowed.
* **C16 Vectorised and sequential updates and flux sweeps compute the same result** - Chunked loops of any vector width (with padding lanes) against plain loops, equality of the whole memory; induction over rows. *Status: partial.* Equality of the whole memory for every vector width in 1 to 3 dimensions for non-empty views; for empty two-dimensional views it is false (updateSimd_empty).
* **C17 Adaptive refinement with flux correction conserves** - Multi-level composite grid in any dimension with level masks, refinement ratios, flux registers (contract of AMReX) and averaging down; algebra by induction over levels and substeps. *Status: proved.* Any dimension, number of levels, ratios, splitting and substep fluxes; the grids are properly nested and not changed within the step, the domain is not periodic.
* **C18 Index boxes form an algebra of index sets** - Boxes over `Fin n -> Int`; set characterisations. *Status: proved.* Index boxes of any rank as sets of integer vectors.
* **C19 ForEachIndex visits every index of a box exactly once, in column-major order** - Nested loops as flatMap; membership + nodup + sortedness. *Status: proved.* Every index of the box exactly once and in column-major order, any rank.
* **C20 Array layouts map distinct in-range indices to distinct in-range offsets** - Mixed-radix maps of any rank by induction; the strided layout with overlapping strides is a witness. *Status: partial.* Left and right layouts are bijections onto [0,size). For strided layouts injectivity holds for nested strides only; strided_overlap shows a strided mapping accepted by the API on which it fails.
* **C21 Sub-views alias exactly the selected elements** - Slices as inductive type; mapping composition; the empty range loses its dimension: witness. *Status: partial.* Proved when at least one range slice is nonempty in the last position; subspan_empty_misplaced is the counterexample for the general claim.
* **C22 span sub-views stay inside the span** - Offsets/lengths; `last` on dynamic spans is wrong: witness. *Status: partial.* last(n) on a dynamic-extent span is proved to point before the span (span_last_dynamic).
* **C23 Row iteration covers every cell of a view exactly once** - Pointer loop with fuel; refinement to rows. *Status: partial.* Full claim for ranks 1 and 3; rank 2 needs nonempty views, forEachRow_empty is the counterexample.
* **C24 Counters report exactly the recorded samples** - Counter/registry state machines; induction on history. *Status: partial.* Full claim for the registry and the statistics of one process; statistics gathered from several processes are right only for equal sample numbers (gather_partial), gather_differs is the counterexample.
* **C25 Every started timer is recorded exactly once** - Timer ownership machine; move assignment loses a measurement: witness. *Status: partial.* All histories without move assignment to a running timer; timer_lost is the counterexample for the rest.
* **C26 The pool allocator never hands out memory that is still in use** - Free-list machine; aliasing witness; partial theorem for the histories where it is safe. *Status: partial.* False of the code (pool_aliasing); proved for histories with at most one block of each size in use.
* **C27 Newton iteration returns only converged results** - Fuelled loop with abstract f, f'; negative residual accepted: witness; one-sided theorem. *Status: partial.* One-sided: the code only throws for positive residuals (newton_negative_residual).
* **C28 Slope limiters are symmetric, bounded by the one-sided differences and vanish at extrema** - Real-algebra case analysis. *Status: partial.* MinMod, VanLeer and the gradient limiters are proved completely; the class NoLimiter, which can be chosen as a limiter too, violates the range property (witness).
* **C29 Numerical fluxes are consistent** - Abstract equation structures; rewriting with constant stencils. *Status: partial.* Proved for all equations, states and signals with a signal interval of positive length. With vanishing signals the vectorised HLL flux returns zero (hll_degenerate), so the unconditional statement is false there.
* **C30 Sequential and vectorised stable time steps agree** - Windows of rows, minimum with value infinity as `WithTop`; both the sequential and the vectorised loop with their actual bounds. *Status: partial.* The vectorised version is the minimum over all stencils; the sequential version leaves out the last one (witness), and tiled iteration leaves out stencils across tiles (witness).
* **C31 Burgers: vectorised Riemann solver equals the scalar one and returns the entropy solution** - Case analysis over an ordered field; Godunov flux min/max spec. *Status: proved.* All pairs of states; both implementations of solver and signals.
* **C32 Godunov's method for Burgers and advection satisfies a discrete maximum principle and does not increase total variation** - Incremental form with non-negative coefficients; induction on steps. *Status: partial.* Proved on periodic (and, for the maximum principle, unbounded) lines with the reported step sizes at all faces. Next to a non-periodic boundary the maximum principle fails (burgers_boundary_overshoot): the reported step size at a cell's own faces is not sufficient.
* **C33 HLL flux is conservative across the interface and upwinds supersonic flow** - Field algebra. *Status: partial.* Jump relations and upwinding are proved in full for the flux; the vectorised Riemann solver leaves dependent variables stale (hll_solver_array_stale), only its conservative part is correct.
* **C34 Shallow water flux** - False of the code unless height = 1: witness; partial theorem for the height component and for h=1. *Status: partial.* The code uses the momentum as velocity (ShallowWater.cpp:29,39). The flux is right exactly for height one or vanishing normal momentum; its height component is always right.
* **C35 Perfect gas: conversions between primitive, conservative and complete states are inverse and preserve positivity** - Field algebra; speed of sound by its square or over the reals. *Status: proved.* All ranks and states; scalar, array and masked conversions. The parameters must be those of a constructed equation: overwriting the public member gamma alone breaks the round trip (gas_gamma_only_fails).
* **C36 Reflection is an involution, keeps density, energy and pressure and reverses the normal mass flux** - Vectors `Fin n -> K`; algebra with dot product. *Status: proved.* All ranks, unit normals and orthogonal rotations.
* **C37 Reflective boundary fills ghost cells with the mirrored interior cells** - Index algebra; lifted to the fill loop. *Status: proved.* All dimensions, patches, tilings, ghost widths. The AMReX box operations (complement, periodic growth) are modelled from their documented behaviour.
* **C38 Transmissive boundary copies the nearest interior cell** - Same. *Status: proved.* Includes the constant boundary, which fills the same cells with the configured state.
* **C39 Boundary sets apply their conditions in order** - foldl over conditions. *Status: proved.* The last theorem shows the stale corner cells for the wrong order of reflective conditions.
* **C40 Pressure valve: after opening it alternates between air and fuel and fuel phases start on the configured schedule** - Step machine; invariant over histories. *Status: partial.* Proved for non-negative offset and interval; valve_negative_offset shows that the interval is ignored for a negative offset.
* **C41 Implicit geometry combinators are boolean operations on the solid sets** - Level sets as functions; fold of max. *Status: proved.*
* **C42 Polygon distance: vectorised evaluation equals the mathematical definition** - Chunked loop over vertex list vs. fold over edges; induction. *Status: proved.* For at least one vertex; without vertices the loop reads outside of the arrays (polygon_empty).
* **C43 Ball and cone level sets have the sign of the solid** - Witnesses for Ball (returns a truth value) and Cone; partial sign theorems. *Status: partial.* The signs of the cone are proved, except that mantle points near the axis may be negative instead of zero; the ball has the sign of its solid only for radius one (ball_wrong).
* **C44 Tag buffering tags exactly the cells within the buffer width of a tagged cell** - Loops as folds over arrays with explicit out-of-range outcome; witnesses for each rank; partial theorems (monotone, containment). *Status: partial.* False in all dimensions: asymmetric in 2-D, tags are ignored in 3-D, out of range access and toggled tags in 1-D. What holds in 2-D and 3-D is proved exactly.
* **C45 Cut-cell tagging tags exactly the cut cells** - Pointwise characterisation. *Status: proved.*
* **C46 Copying a solver, context or hierarchy yields an equivalent object** - Structures with explicit copy functions; witnesses for lost members / null dereference. *Status: partial.* The property is false of the code in the five listed ways; the partial theorems state what a copy does keep.
* **C47 Regridding keeps level times and cycle counts** - Hierarchy bookkeeping machine; RemakeLevel resets cycles: witness; partial for times. *Status: partial.* Times and once-per-time-point are proved for all histories; the cycle count part is false of the code (witness).
* **C48 Characteristic reconstruction is the inverse of the characteristic decomposition** - Field algebra; scalar version wrong for Mach /= 1: witness; partial for Mach = 1. *Status: partial.* Proved for Mach number scaling one. False otherwise: the scalar version divides the velocity slope by the Mach number, the vectorised version multiplies by it.
* **C49 Integer power and clamp** - Recursion/induction. *Status: proved.*
* **C50 Runtime assertions fire exactly when the asserted condition is violated** - Macro as function of the truth value; negation. *Status: partial.* The throwing mode is inverted (assert_throws_inverted).
* **C51 First order HLL steps keep density and pressure of a perfect gas positive** - HLL flux with Einfeldt signals on a bi-infinite line; convexity of the set of admissible states; induction over time steps. *Status: proved.* Exact real arithmetic; the line is infinite (periodic data included).
* **C52 Exact Riemann solver of the shallow water equations** - Wave curves as real functions; derivative, strict monotonicity, concavity; Newton convergence by a concavity argument; the sampled state compared with shocks and rarefactions defined by jump conditions and Riemann invariants. *Status: proved.* Exact real arithmetic. The convergence theorem does not bound the number of iterations by the 5000 of the code.
* **C53 First order HLL steps keep the water height positive** - Height component of the HLL flux as a convex combination; induction over steps. *Status: proved.* Independent of the wrong momentum flux (C34), since the height component is right.
* **C54 The HLLEM flux is consistent and keeps stationary contact and shear waves** - Scalar and array versions of the HLLEM flux for one to three dimensions with and without Larrouturou's splitting, symbolic evaluation on equal states, contacts and mirrored states. *Status: partial.* False of the code in three dimensions and for the scalar Larrouturou version (three counterexample theorems); proved for every other variant. No species.
* **C55 Signals, upwinding and time step of the HLLEM flux** - Roe average and signal bounds over the reals. *Status: proved.* Exact real arithmetic; upwinding for the version without Larrouturou's splitting.
* **C56 The HLLEM Riemann solver returns gas states** - The intermediate state of the Riemann solver as coded; counterexamples with rational data. *Status: partial.* False of the code: the state correction lacks the factor 2/(bR-bL), and the Larrouturou version drops tangential momentum in supersonic flow. Proved: equal states without the splitting.
* **C57 Valves of the combustor inflow: never an unset opening time, correct elapsed time** - State machine of the valve with an arbitrary reduced model; invariant over histories. *Status: proved.* For inner pressures that are numbers, and non-negative compressor pressures for the valve with hysteresis; the last theorem shows that both hypotheses are needed.
* **C58 A tube follows its centerline** - Fold over the sections of the tube as coded; disjointness from the cutting planes. *Status: partial.* The decomposition into disjoint sections is proved; that the tube contains its centerline and ends at its end is false (tube_straight_wrong).
* **C59 The gradient detector tags exactly the cells with a large relative jump** - Scalar loop over all indices of a box and vectorised loop over a row with its actual buffers; induction over chunks. *Status: partial.* Proved for the scalar detector (with and without volume fractions, all ranks). The vectorised detector is correct only for rows that fit into one vector, up to pairs of zeros; gradRow_wrong is the counterexample for every larger row length W+1.
* **C60 A constant refinement region is the same physical region on every level** - Integer division of box corners by the product of refinement ratios. *Status: partial.* Proved for equal refinement ratios, false otherwise.
* **C61 The inverse reconstruction undoes the reconstruction** - Primitive and characteristic slopes as coded; algebra. *Status: partial.* Proved for zero pressure slope (except the passive scalars, whose error is stated exactly). False with a pressure slope.
* **C62 Conversions of gas mixture states are inverse to each other** - Conversions with a list of species and passive scalars; algebra over the reals. *Status: proved.*
* **C63 Kinetic states describe the complete state** - As C62 with temperature and mole fractions. *Status: partial.* Proved for Mach number scaling one, which is what ComputeConstants gives. With another scaling the scalar versions are wrong; the exact errors are proved.
* **C64 An isentropic change of pressure keeps entropy, total enthalpy and composition** - Real powers; entropy and enthalpy identities. *Status: partial.* Pressure, entropy and (up to the stagnation pressure) total enthalpy proved. False for the composition and above the stagnation pressure.
* **C65 An isentropic expansion converts enthalpy into velocity** - Real powers; energy balance; counterexamples with rational data. *Status: partial.* Only pressure and density are correct; the energy balance is false in both versions.
* **C66 The exact Riemann solver for the perfect gas samples the exact solution** - As C52 for the gas: wave curves with their derivatives over the reals, uniqueness by strict monotonicity, existence by the intermediate value theorem, Newton convergence by concavity, waves by jump conditions, entropy conditions and Riemann invariants. *Status: proved.* Exact real arithmetic. The convergence theorem does not bound the number of iterations by the 5000 of the code; for an inexact middle state an error bound and positivity are proved.
* **C67 The shielded and unshielded parts partition every face** - Case distinction over the order of three open fractions. *Status: proved.*
* **C68 The cut-cell update is conservative** - Stabilised fluxes and update of one cell as coded; balance of one cell for a cell cut by a plane, then induction over the line. *Status: proved.* For both time integrators. The wall area that the first one uses leaves out the doubly shielded part of a face.
* **C69 Small cut cells are stable** - Convex combinations with weights bounded by the geometry of the cell; the bound does not contain the volume fraction. *Status: partial.* Proved for the stabilised integrator; false for TimeIntegrator2.
* **C70 The vectorised cut-cell update equals the scalar one** - Row of packs of any width with its remainder. *Status: partial.* Proved for cells with volume; covered cells in a pack with other cells keep a value.
* **C71 Rotations into the frame of a wall are orthogonal and invertible** - Matrices over the reals for two and three dimensions; algebra with the constraint of unit length. *Status: proved.* For opposite vectors in three dimensions the matrix is a point reflection, orthogonal but not a rotation.
* **C72 No mass and no energy passes an embedded wall** - The exact Riemann solver of C66 applied to mirrored states; rotation of the result; balance with the wall area of C68. *Status: partial.* Proved away from doubly shielded faces; false next to them.
* **C73 Refluxing is conservative at cut cells** - One coarse face with the list of fine faces of all substeps; contract of the flux register as in C17. *Status: partial.* Proved for whole cells and open faces; false for cut ones.
* **C74 The Arrhenius source term converts fuel into product and heat** - One lane of the array code over the reals with assertions as `none`; induction over steps. *Status: partial.* Proved above the switch temperature; below it and for lean gas the code adds or sets fuel of 2^-26, which grows with every step and makes the product negative.
* **C75 The ignition delay source term ignites after the given delay** - As C74; decay of the fuel by induction over steps with real powers. *Status: partial.* Conservation proved for all options with Yign/Yinit <= tau; the delay is proved for tau = 1 and false for others.
* **C76 The temperature for an ignition delay is found** - Derivative, monotonicity and convexity of the delay over the reals; monotone Newton iteration with a lower bound of its increments. *Status: partial.* Derivative proved for fuel fractions of at least eps, convergence from the cold side up to a quarter of the activation energy.
* **C77 The gas turbine control keeps its balances and ranges** - State machine of the control with one transition per update; invariants by induction over the history, identities for one update. *Status: partial.* Balances hold inside of the speed range and for time steps up to one; outside of these the code loses power, oscillates or takes the square root of a negative number.
* **C78 The turbine plenum gives the tube a physical ghost state** - Function of the inner state and the plenum; isentropic relations proved for all states of the gas. *Status: partial.* The passive scalars are not rescaled, the inflow velocity does not give the total enthalpy of the plenum and the outflow loses total enthalpy: each is proved as a negative result.
* **C79 A pressure outlet imposes its pressure on subsonic outflow only** - Function of the inner state for both gases; case distinction. *Status: partial.* The test for supersonic flow uses the magnitude of the velocity; proved as it is, with the wrong consequence for oblique flow.
* **C80 The Mach number boundary imposes its Mach number with the stagnation state of the inside** - Function of the inner state; isentropic relations. *Status: partial.* The density uses the exponent 1/(gamma+1), so that the Mach number of the ghost state is too large; proved.
* **C81 The isentropic mass flow boundary gives the required mass flow** - The operator with the Newton iteration of C64 as component; closed form of the new state, residual of the iteration bounds the mass flow error. *Status: partial.* Holds for results that are not supersonic in at least two dimensions. For supersonic flow the density is limited and the velocity is not, so that the mass flow exceeds the required one.
* **C82 The mass flow boundary makes the numerical flux equal to the required mass flow** - The two lambdas; specification is the mass flux of the HLL solver with Einfeldt signals in scaled variables, which the ghost velocity inverts. *Status: partial.* The supersonic test on the right side has a wrong sign; proved with the inputs for which the flux is wrong.
* **C83 The exact mass flow boundary solves the Riemann problem with the required mass flow** - Wave curve of the exact Riemann solver (C66), continuity and intermediate value theorem, invariant of the bisection, uniform continuity for the accuracy. *Status: proved.* For the perfect gas in exact real arithmetic; the library bisection is modelled after its documentation.
* **C84 The mass flow boundary at cut cells imposes the mass flow isentropically** - Scalar function of the inner state; comparison of the isentropic factors. *Status: partial.* Only a state that has the mass flow already is treated right; otherwise inner and outer velocity are exchanged and the density is that of the inner state. Proved as a negative result for all accelerated states.
* **C85 Shock initial data are one shock with the given Mach number** - The state from the formulas; jump conditions for an arbitrary unit normal from those in the frame of the shock. *Status: partial.* The jump conditions are proved to hold exactly if the gas in front moves in the direction of the normal; the code uses the norm of the velocity.
* **C86 The axial tube integrator is conservative with the cross section areas** - One component, one tube; sums over cells telescope. *Status: proved.* For all area profiles; the HLLEM flux of C33 is used for gas at rest.
* **C87 The axial source term solves the equations of a slowly varying cross section** - Vector field and Runge-Kutta step; derivative of the entropy along solutions; index sets of stored and read cells. *Status: partial.* The exact equations are proved isentropic and the step a Runge-Kutta step. Proved to disagree: the function called diameter has to be the area, slope and area are taken at the right face, and ghost cells are read out of range.
* **C88 The diffusion source term conserves mass, species and energy and mixes** - Face flux as function of the two neighbours; sums over cells telescope; convex combination for the maximum principle. *Status: proved.* The maximum principle holds for any number of steps with dt <= rho dx^2 / (2 muSc) in every cell, for ends that copy, mirror or prescribe the mass fractions (diff_species_maximum); diff_species_maximum_partial is the local version away from the ends, which also serves periodic tubes. One patch, exact numbers.
* **C89 Copies of the diffusion source term behave like the original and its step is stable** - Members as a record; copy constructor as function; growth of an oscillation. *Status: partial.* Both parts are proved to be false: copies get the default options, and the largest double is reported as stable step.
* **C90 The axi-symmetric source term integrates the geometric source over the time step** - Runge-Kutta steps of the source for one cell; witnesses. *Status: partial.* Density and internal energy of outward flow are proved to get the Runge-Kutta factors of the exact solution. Proved to disagree: inward flow is not advanced, the steps cover the time step only if it is a multiple of the step size, and species rates have a further factor of the density.
* **C91 Ignitions follow their schedule and need fuel** - Run of the state machine over a list of steps; induction. *Status: partial.* Schedule and fuel criterion are proved for a positive offset. The distance of consecutive ignitions and the default offset zero are proved to disagree.
* **C92 An ignition never cools the gas and has the requested shape** - Decision logic over an ordered field. *Status: proved.* For a positive ramp width.
* **C93 The average of a state over a box is the mean over its cells** - Lists of visited cells are a permutation of the cells of the box. *Status: partial.* Proved if the level covers the box; otherwise the average is proved to be too small by the covered fraction.
* **C94 Data exchanged between blocks of different cell size are exact averages** - interpWhile/interpCell/interpGreater/interpLess model the loops with list indices that fail outside of the list; the specification is the mean of a piecewise constant function by overlap lengths; proved with the integral as loop invariant. *Status: partial.* Proved for refining, equal cells and for coarsening whose ghost layer does not end at a source face; in the remaining case, in particular for every integer ratio, the code reads behind the source (disagreement).
* **C95 Cross section averages are volume weighted means independent of the distribution** - Sums over tiles and ranks are modelled as the nested loops; proved with the permutation of the visited cells from C93. *Status: partial.* Means, ranges and independence of the distribution are proved; for connections in the second or third direction the averages are written outside of their storage (disagreement in reduced_index).
* **C96 Coupled blocks see each other's state at the mirrored position** - mixComplete of the C62 model on reduced and embedded conservative states; index maps over the integers. *Status: partial.* Positions, embedding and the round trip are proved; the reduction does not keep the pressure (reduce_pressure gives the exact error).
* **C97 Every connection of a block updates the block's own boundary condition** - Lists of connections and of condition numbers; the zip of the code is modelled literally. *Status: partial.* Proved for blocks whose connections come first in the list; the others are missed or paired wrongly and copies lose members (disagreements).
* **C98 Fluxes of coupled blocks are conservative** - Same sums as C95 over the face box; membership in the boundary layer by box arithmetic. *Status: partial.* Conservation is proved for the faces that are used; at the upper side these are not the boundary faces (disagreement).
* **C99 The nodal pressure operator is the divergence of the weighted gradient** - Model the kernels over index groups (integers or a cyclic group), specify cell gradient, nodal divergence and flux separately, prove the identities by ring normalisation and the adjointness by shifting sums over the periodic grid. *Status: proved.* Two-dimensional, one level, exact arithmetic.
* **C100 The pressure equation is solvable and its solution is unique as far as the gradient is concerned** - Energy identity gives injectivity modulo the kernel; existence from finite-dimensional rank arguments (range = annihilator of the kernel). *Status: partial.* Periodic grids. Uniqueness up to a constant is false (checkerboard modes on even grids, helm_checkerboard); uniqueness of the gradient is what is proved. That the multigrid iteration converges is not modelled.
* **C101 Smoothers do not move the solution and grid transfer is consistent** - Pointwise algebra for Jacobi; induction over the node list of a sweep for Gauss-Seidel; convexity of the weights for the transfer operators. *Status: partial.* Fixed points of single sweeps and transfer operators; convergence of the multigrid cycle and coarse-fine residuals are not modelled. The coarse operator uses one harmonic coefficient in both directions of a term (helm_ha_not_conservative).
* **C102 The advection of the low Mach solver is upwind, conservative and keeps uniform fields** - Case analysis on the sign of the face value, induction over the sweeps, shifted sums for conservation. *Status: partial.* Bounds are not kept because the slopes are not limited (lm_overshoot).
* **C103 The implicit source step solves the Coriolis and pressure equations** - Linear algebra of the 2x2 rotation; the flux handed back is the flux of the operator, so the new divergence is the residual of the linear equation. *Status: partial.* The projection holds for axis k2 = 1 and an operator whose diagonal has not been set by an earlier compressible step; otherwise it is false (lm_initial_projection_stale).
* **C104 A step of the low Mach solver keeps divergence freedom, mass and uniform flow** - Compose the substep theorems; induction over the list of steps. *Status: partial.* Periodic, one level, exact linear solver; divergence freedom needs positive advected density. A failed step may leave a changed momentum (lm_step_failure_changes).
* **C105 The slope limiter of the cut-cell method terminates, never overshoots and limits no more than necessary** - Model of the active-set solver, the constraints and the test for connected neighbours (Model/MdLimiter). Invariant (independent tight constraints, feasible point), optimality by multipliers; termination because every entering row lies strictly between the cost vector and the previous one, so the set of such rows shrinks (no cycling, no nondegeneracy assumption): at most m+3 iterations. *Status: partial.* Proved for the neighbours the code counts as connected, in exact arithmetic (Cramer's rule instead of QR). Missing: neighbours behind an open face that the code does not count; md_limiter_misses_open_neighbour shows that the reconstruction overshoots them.
* **C106 Gradients of cut cells are least squares fits over open neighbours and exact for affine fields** - Normal equations, insertion sort of libstdc++ with the comparison of the code; sortedness under totality; stencil selection by cases. *Status: partial.* The fit is proved in general (normal equations instead of QR). The choice of neighbours is proved if the volumes are ordered like the faces. Missing: other geometries, where the comparison is not a strict weak order and assertions fail (grad_sort_not_an_order), and channels one cell wide (grad_channel_fails).
* **C107 States reconstructed next to faces and walls are exact for affine fields and mirror the flow at walls** - Identities of the reconstruction for affine fields in both directions; mirror images as an independent specification. *Status: partial.* Exactness and mirroring of the states are proved; gradients of scalars are mirrored. The gradient of the velocity is not mirrored by the code (hgrid_wall_gradient_not_mirrored). Conversions between complete and gradient variables are the identity in the model; the base class variant of the wall stencil is not modelled.
* **C108 Reference states of walls and stabilised fluxes of the second order cut-cell method are consistent** - Sums over sources; fold over the cells for the stored references; face parts as in C67. *Status: partial.* Proved: the value and first gradient of reference states, coverage, convexity for faces not shielded from both sides, the centroid for fully open faces shielded from one side. The remaining parts are false of the code: reference_gradient_wrong, reference_stale, my_stable_loses_doubly_shielded, unshielded_centroid_wrong. The sources (polygon intersections with CGAL) are inputs.
* **C109 A grid file shows the finest data everywhere** - Model the loops over levels, patches and ranks with the reduction to rank zero; prove by induction over levels that the value is the one of the finest covering patch. *Status: partial.* the value of the finest covering patch for all hierarchies and ranks, if it is not zero; a zero is replaced by the coarse value; with cut cells and several ranks volume fractions are added; the cut cell output restricted to a box is incomplete
* **C110 Probes record the state of the finest cell at their position** - Model GatherStates in the same way with cells that contain the probe. *Status: partial.* the state of the finest cell if it is not zero; a component that is zero is replaced by the one of the coarser level
* **C111 A grid file holds all outputs of its history in order** - Model datasets with extents, growth and hyperslab writes; induction over the history, with the number of datasets written by each output as crash point; reader as index computation. *Status: partial.* proved for outputs of the same extents and for crashes between datasets; after such a crash data and times are shifted against each other; a change of the extents mixes cells or reads behind the fab; the second reader does not reshape. A crash inside of a call of the HDF5 library is not modelled
* **C112 Starting a run never destroys the output of an earlier run** - File system as a function from paths; search of the first free name; induction over runs. *Status: proved.* for the constructors that take program options; the constructors with explicit path do not rename
* **C113 Probes and blocks are those the user asked for** - Probe datasets as in C111 with the time as last index; coordinates of tubes as list access; choice of the block as decision logic. *Status: partial.* layout of the probe file for all histories; probes of the first tube; other tubes use the probes of the first one, tube files are not renamed, negative block numbers access memory outside of the list
* **C114 Every HDF5 object that is opened is closed exactly once** - Handles as a map from variables to identifiers; counting invariant over all operations. *Status: proved.* invariant over all sequences of operations; self assignment closes the object
* **C115 The primitive MUSCL-Hancock method of the perfect gas is consistent, makes no new extrema in space and predicts with the Euler equations** - Model the limiter, the predictor and the flux; closed form of the limiter, then consistency through the HLLEM theorem. *Status: partial.* Positivity holds without time step only; the counterexample has half of the stable time step. Mirror symmetry is proved for one and two dimensions (the HLLEM method is not symmetric in three). The scalar versions are not implemented in the code and throw.
* **C116 The characteristic MUSCL-Hancock method of the perfect gas is consistent and equals the primitive one on smooth data** - Model amplitudes, slopes, time step and recombination; compare with the Euler matrix in primitive variables. *Status: partial.* Mirror symmetry in one and two dimensions. A covered cell switches off the slope for limiters that vanish when their first argument does; for the central slope this is false and a witness is proved.
* **C117 The third order Runge-Kutta flux computed face by face is the Runge-Kutta method on the whole grid** - Model the three loops with their index ranges and junk outside of them; unfold the stages on an infinite grid and compare with the method of Shu and Osher. *Status: partial.* The time step ignores viscosity and conduction, so no stability is claimed. The interpolation to faces is of second order only and not positive (proved). Array version; the scalar version differs by its assertions.
* **C118 The compiled hydrogen mechanism is the law of mass action for balanced equations and conserves mass and atoms** - Generate the model of the production rates from the source, line by line; compare with the law of mass action for a separately written list of equations by ring. *Status: proved.* The list of chemical equations in Spec/Chemistry.lean is the mechanism as written in the labels of the generated code. Exact arithmetic.
* **C119 Chemistry does not drive concentrations below zero** - Split the rates into gain and loss; positivity of the Arrhenius and fall-off expressions over the reals. *Status: proved.* Real arithmetic; the pressure must be positive because the fall-off function takes its logarithm.
* **C120 The thermodynamic tables give positive heat capacities and one sound speed on their range** - Bernstein certificates for the polynomials on the table ranges. *Status: partial.* The versions differ on [299.999999, 300); the derivative holds up to a relative error of 1e-8 and away from 300 K and 1000 K; the tables jump at 1000 K.
* **C121 The reactor reports the thermodynamics of its current temperature after every history of calls** - Model the members of the reactor and all calls; induction over histories of calls with the ODE solver as an arbitrary list of evaluations. *Status: partial.* False right after Advance: the tables are those of the last temperature at which the ODE solver evaluated the right-hand side (radau.f:1648-1653 returns before evaluating at the final state). Proved for all other histories.
* **C122 Setting the composition of the reactor normalises it** - Model the three versions; algebra of normalised sums. *Status: partial.* The versions agree on non-negative vectors only; a vector without positive entry is accepted and gives zeros.
* **C123 What the reactor reports for pressure, mole fractions, production rates and ignition time belongs to its state** - Algebra, and witnesses where the state is stale. *Status: partial.* GetMoleFractions returns concentrations; production rates are stale after SetDensity and SetPressure; the old temperature in AdvanceAndFindMaxdT is never updated. Negations are proved.
* **C124 The reactor equations conserve mass, atoms and internal energy** - Model the right-hand side; differentiate mass and energy along a solution, derivative zero implies constant. *Status: proved.* Exact solutions of the differential equation; the numerical solver is not modelled. The tables of Burke 2012 satisfy the derivative hypothesis only up to 1e-8 (C120), so for them mass and atoms are proved.
* **C125 A composition written as text is read back** - Model the parser on characters; induction over the list of entries. *Status: partial.* The number reader of the stream is a parameter which reads back the numbers of the text. Exceptions do not restore the composition, malformed numbers at the end are accepted, a missing number reads an uninitialised variable: witnesses.
* **C126 Setting the energy or the enthalpy of the reactor finds the temperature** - Model the loop over states (T, dT, U, dU, Cv) with the step limit, the back-off on negative heat capacities and the stopping test; a generic curve specification; contraction of the distance by q in the second phase and decrease by 100 K per step in the first phase, by induction over the fuel of 1000. *Status: proved.* set_energy_gap: over a jump of the tables (1000 K) the iteration accepts a temperature whose energy misses the target
* **C127 With the hydrogen tables energy and temperature are inverse to each other** - Bernstein certificates for the range of each species' heat capacity on the intervals of the tables, mean value theorem for the secants, the size of the jump at 1000 K, sums over the species; then C126 with q = 0.97. *Status: partial.* missing: temperatures within one kelvin of the seam at 1000 K, below 300 K and above 2500 K; exact real arithmetic
* **C128 Completing a state of the ideal gas mixture keeps what is conserved and has no memory** - Model of the reactor calls in their order over C121/C122/C126; specification IsMixture of a complete state; equality of reactor states for the absence of memory; C127 for the round trip and the lanes. *Status: partial.* missing: temperatures around the seam at 1000 K, below 300 K and above 2500 K (C127); exact arithmetic; igm_complete_species_sum: partial densities that do not sum to the density are changed
* **C129 Fluxes, rotations and reflections of the ideal gas mixture are those of the multi-species Euler equations** - Identities of sums; the rotation lemmas of the perfect gas (C36). *Status: proved.* igm_flux_vacuum: the scalar flux of a cell without density is not written
* **C130 The kinetic source term advances each cell on its own and keeps mass, momentum and energy** - The loop over a list of cells with one reactor state; induction over the list with the invariant that the tables belong to their temperature; the solver is an arbitrary function with the list of temperatures it evaluated. *Status: partial.* the energy is only conserved if the solver evaluated the right-hand side last at the temperature it returns (kinetic_energy_drift is the counterexample); exact arithmetic
* **C131 The ODE solver integrates the whole interval or throws** - The driver as a function of an arbitrary kernel with the opaque pointer as argument; case analysis over return codes; composition of flows. *Status: partial.* false after the return code -3: wrong pointer, wrong intervals, start from a changed vector; the Fortran kernel is a parameter
* **C132 Copies and assignments of a reactor behave like the original** - Objects as records of members; equations between them; a one-lane table for the observable effect. *Status: partial.* false for the array state after an assignment and for the parameters of the solver after a copy
* **C133 Every line of a log message is attributed, blacklisted channels are silent and old logs are kept** - Strings as lists of characters; Mathlib's splitOn as specification of lines; the bisection of std::lower_bound with its partition specification; the file system as a function from paths. *Status: partial.* false for messages of one character (log_short_message_lost) and for the old logs of ranks other than 0 (log_other_ranks_overwrite)
* **C134 Values per thread do not depend on the schedule** - A schedule is a list of (thread, body); induction over the list; sums of lists and IsLeast as specification. *Status: proved.* exact arithmetic: in floating point the sum depends on the order within rounding
* **C135 The mean value in a box is the mean over its cells** - C134 for the threads; a cell is counted once per loop body whose array contains it; Finset sums. *Status: partial.* false if a cell is a ghost cell of another patch or its patch is visited in several tiles (meanValue_multiplied_by_tiles); meanValue_weights is the value for every decomposition
* **C136 Initial data from a one dimensional solution are the data of the file** - The two bisections with their partition specification; the set of positions in the cell as Finset; bounds of means. *Status: partial.* the mean leaves out the leftmost position of the cell, and a cell with one position gets the value of the next one (interp1d_cell_centres_shifted); datasets with another number of columns are not modelled
* **C137 Options are what the user wrote and defaults are used exactly for what the user did not write** - Lookup functions and case analysis; induction over the entries of a dictionary and the globals. *Status: partial.* false for directions, whose range is not checked, and for a second script, which inherits the variables of the first; only integers, floats, strings and dictionaries are modelled
* **C138 Signal velocities of the ideal gas mixture enclose the waves of both sides** - Case analysis of minima and maxima over the Roe mean, which is a convex combination; reflection of momenta as specification of the mirrored states. *Status: partial.* false that the versions agree: scalar and masked version take half of the speed of sound of the mean state, the array version all of it (igm_einfeldt_versions_differ)
* **C139 The primitive MUSCL-Hancock method of the ideal gas mixture is consistent, predicts by the Euler equations and keeps mass fractions in bounds** - HasDerivAt along a solution of the Euler equations in conservative form as specification of the predictor; round trip between conservative, complete and primitive states; limiter as a factor in [0,1]; witnesses with three and four species. *Status: partial.* false for the array version: wrong sign of the temperature at the right side (igm_muscl_lane_temperature, igm_muscl_versions_differ), negative mass fractions (igm_muscl_lane_negative); false for the scalar version that the fractions sum to one before normalisation (igm_muscl_scalar_inert); a chunk of closed faces is not written (igm_muscl_masked_closed); positivity of reconstructed pressure and temperature is a hypothesis
* **C140 The characteristic MUSCL-Hancock method of the ideal gas mixture is consistent and predicts by the Euler equations** - The predictor theorem of the perfect gas method (C60) with the ratio the mixture hands over; IsMixture for the complete state; induction over the loop over the rows. *Status: partial.* false that the predictor moves by half a time step: it moves by a quarter (igm_char_quarter_step, igm_char_species_step); the array version leaves its arrays (igm_char_array_loop), so only its loop is modelled; positivity of the reconstructed density and pressure is a hypothesis
* **C141 The result on a level does not depend on its decomposition into patches and tiles** - Boxes as integer bounds in any dimension; views out of range as failure; the sweep over tiles as a fold over the list of tiles; induction over the split steps with the radius around the patch in which its states are those of the level. *Status: proved.* the physical boundary condition that is applied between split steps, and the interpolation at coarse-fine borders (which happens once before the step), are not part of this model; the condition on the ghost cells is necessary (too_few_ghost_cells)
* **C142 Boundary conditions on a mesh with embedded boundary fill exactly the open ghost cells** - A general theorem about the masked loop over pairs of cells (`runMasked_spec`), by induction, with the characterisation of the written cells of C38 (`ghost_copies`); one relation `FillsWith` as specification for all conditions; a witness for the section on a refined level. *Status: partial.* false for sections on refined levels: the section is used with the same indices on every level and overwrites cells of the domain (section_level_wrong)
* **C143 The isentropic pressure boundaries of the ideal gas mixture expand along an isentrope and keep the total enthalpy** - Invariant of the tables of the reactor over the evaluations of the right-hand side; constancy of the entropy along a solution by the mean value theorem; IsMixture (C128) as specification of the ghost state; case analysis of the signs. *Status: partial.* false: at equal pressure the flow is reversed, outflow at the left side is slowed down or reversed (isoVelocity_wrong); with embedded boundary the ghost state of a subsonic state is always at rest and not isentropic (igmGhostCut_rest); the entropy is proved for an exact solution of the ODE
* **C144 The nodal operator for linear velocities is symmetric, has only constants in its kernel and is consistent** - The stencil as a sum over the four cells at a node, shifted on the periodic grid, gives the energy; the energy is a sum of squares of the cell gradient and the mixed difference; dimension count for solvability; induction over the nodes of a sweep. *Status: proved.* all parts, exact arithmetic, one level
* **C145 The kernels of the nodal operator for linear velocities belong to one operator** - Identities between the kernels, with the exact difference where they disagree, and witnesses. *Status: partial.* false: the corrected velocity keeps a divergence (lin_projection_wrong), the operator of the coarse multigrid levels does not annihilate constants (lin_ha_const) and its normalisation is 8/3 of the diagonal (lin_ha_normalize_wrong), the residual between levels uses another operator (res_cf_wrong)
* **C146 Regridding and initialisation conserve** - Levels as sets of cells with values; induction over the levels with the invariant that the new level keeps the values of the old one, so a block of fine cells is either completely old or completely a copy of its coarse cell; the fine cells are sorted by their coarse cell for the total. *Status: proved.* all parts, exact arithmetic; the hypothesis that a created level has ratio two is necessary (create_ratio_wrong)
* **C147 Every cell holds a complete state after a regrid** - Induction over the levels for an arbitrary predicate on states; witnesses for created levels and for the initialisation. *Status: partial.* proved for regrids which remake and remove levels; false for created levels, whose components outside of the conserved ones are uninitialised memory (regrid_complete_wrong), and for the cells averaged by the initialisation (initialize_complete_wrong)
* **C148 Every block of a multi-block run is advanced like in a run of its own** - The context as level integrator of the family of blocks; simulation between the recursion of all blocks and that of one block, where steps of levels the block does not have are no-ops; induction over the recursion depth and the sub-steps. Folds for the step size. *Status: proved.* all parts; what the coupling computes is arbitrary; the refinement ratios are those of the first plenum
* **C149 Blocks may have different numbers of levels** - Flag for the access of missing levels; invariant that all blocks have the same levels; witnesses with two blocks and with a regrid in the middle of a step. *Status: partial.* proved if all blocks have the same levels throughout; false otherwise (mb_bad), and the stored times of the tubes can be wrong after a regrid (mb_tube_times_wrong)
* **C150 A checkpoint is read back exactly or not at all, and a restarted run continues the interrupted one** - The header is a stream of tokens, a time point is printed as any decimal with 17 digits that is nearest and read as any nearest double; distance of doubles against the rounding error of the printer. File operations in any order with a crash point as an inductive relation, invariant on the directory. The run loop is simulated by the restarted run: they are in step. *Status: proved.* all parts, for hierarchies without node and face data; the order of completion of the files of one checkpoint is arbitrary, AMReX' own files of a level are complete, torn or absent
* **C151 A checkpoint contains everything a run needs, and wrong checkpoints are rejected** - Witnesses and exact descriptions: what is read for each kind of mismatch. *Status: partial.* false of the code in every part; the theorems say exactly what happens instead (and that the default precision of a stream would lose time points)
* **C152 The debug output writes everything that was saved, once and with its own name and boxes** - Fields with abstract boxes and values; the nested loops over names are flattened to one list; partitions by strong induction on the length; columns of a joined field are the columns of its members; termination of AddSnapshot by the number of directories with a number not below the counter. *Status: proved.* all parts; fields have at least one level, AMReX' plot file writer is not modelled
* **C153 Names of components and directories of snapshots in the debug output are unique** - Witnesses for the collisions, positive theorems by induction on the list of names. *Status: partial.* false of the code in general; proved for names none of which is a repeated name followed by an underscore and a number, and for directories as long as not both the name and the name with -0 are in use; the collisions are proved
* **C154 States are loaded and stored without mixing cells, variables or components** - Memory as a function of addresses, views as base, extents, strides and origin (Model/Layout); induction over the list of variables; injectivity from the bijection of C20. *Status: proved.* for equations with fewer dimensions than AMReX under the hypothesis that the Fab has one cell in the other directions or all variables are scalars (see C155)
* **C155 Views and rows of states are right for every equation** - Witnesses computed from the model; the positive part by unfolding. *Status: partial.* false of the code in general; proved if the first variable is a scalar, and in C154 for Fabs with one cell in the other directions
* **C156 The stabilised flux at an embedded boundary depends on this step only and is the same in all patches** - The sweep as a fold of stores over the cells, with lemmas for the value of every array after the step of one cell. Threads as interleavings of the programs of the tiles: every array entry is only ever overwritten by the same value, and the last combination of a face comes after all sweeps because every program ends with a combination of all faces. *Status: proved.* the fluxes from the reconstructed stencils are given functions (they read only data that the sweep does not write; see C107, C108 for the stencils)
* **C157 The stabilised fluxes of a patch are right for every schedule of the threads and for every number of additional faces** - An interleaving in which the loads and the store of one combination are separated, evaluated by the kernel; two patches that meet in a face, evaluated likewise. *Status: partial.* false of the code: a thread that is interrupted between loads and store of a combination leaves a stale flux, and without ghost faces the shielded fluxes of the first and last face of a patch are never computed; proved for uninterrupted combinations
* **C158 The polygons and integration points at an embedded boundary describe the geometry** - The cell is the hull of its corners; a point of the fluid part lies on a segment between the hull of the corners in front of and behind the wall, and that segment meets the wall in the cell, which is the segment between the computed ends. Mirror polygon by polynomial identities modulo the unit length of the normal. Centroid by induction on the list of vertices, as a telescoping sum over the edges; rotation by permutation of the edges. *Status: proved.* two space dimensions; exact arithmetic; the convex hull and the intersection of polygons are operations of CGAL and not modelled (the theorem about the polygon of a cell speaks about the hull as a set)
* **C159 The integration points of the mirror region cover all of it** - A wall with rational unit normal evaluated by the kernel; the reflection is an isometry. *Status: partial.* false of the code: a slightly sloped wall next to a cell face has a mirror region that leaves the 3x3 neighbourhood; proved: the region stays within a distance of the centre of the wall that only depends on the cell size
* **C160 The finest level of a plenum sees the tubes through its walls** - Model of the stored reference states, mirror states and masks with the operations on them, on top of an arbitrary level integrator; a log of the computations of fluxes. Invariant of the run by induction on the recursion over levels and on the subcycles, for both solvers. *Status: proved.* one plenum; the number of levels does not change in a step; the Riemann problems and the data of the tube are given functions
* **C161 The coarser levels of a plenum see the tubes at the place of the connection** - The same induction: the first call for the finer level overwrites the states of this level, and no later call restores them. Boxes by integer arithmetic. *Status: partial.* false of the code: on every level with a finer level the state behind the wall is zero and the reference state that of a closed wall when the fluxes are computed, and on finer levels the masked cells of a sloped connection lie outside of its region; proved: the masked cells are right on the coarsest level, and C160 for the finest
* **C162 Averaging to a coarser level counts the gas only** - Sums over the fine cells of a coarse cell with volume fractions as weights; induction over the levels for the initialisation; the coarsening during a run is the same function without the factory. *Status: partial.* proved for the initialisation; for the coarsening during a run only in cells whose fine cells have equal volume fractions, it is false at walls: the scratch data have no factory for embedded boundaries, so all fine cells count alike (eb_coarsen_plain, eb_coarsen_wrong)
* **C163 Regridding with embedded walls keeps the amount of gas** - Induction over the levels with the invariant that the new level keeps the old values; the total by sorting fine cells by their coarse cell; volume fractions of a wall given by its height for the witness. *Status: partial.* the means are kept for all geometries, the amount if the levels have one geometry (true for flat walls along the mesh, eb_flat_wall); false for curved walls because every level is built on its own (eb_geometries_differ, eb_regrid_wrong)
* **C164 Leaving out grids inside of walls loses no gas** - Lists of boxes per rank; the count of every box in the joined list; sums over removed boxes vanish. *Status: proved.* all parts
* **C165 The file of the control states can be read back** - The table of the fields as a sorted map; the datasets as lists of rows; induction over the outputs with a crash point for each, then over the runs. *Status: proved.* all parts, as long as one of the numbered names below the largest int is free; otherwise the run before is overwritten (control_names_exhausted)
* **C166 A refined tube with a varying cross section conserves mass** - The axial update in the system of Model/Amr; in variables per length (value times mean area, flux times area) it is the plane update, so the invariants of C17 carry over; a full run on three levels as the counterexample. *Status: partial.* proved if the tube is straight in every uncovered cell next to refined cells; in general it fails (axial_amr_not_conservative, axial_coarsen_not_conservative)
* **C167 The flux method of a program is the one its options name** - The C++ types as terms, the rebinding templates as recursive functions, the tables as sorted maps; the meaning of a chosen type is the flux function it computes, compared with a flux function given by the names. *Status: proved.* all parts, for equations of rank one (the only ones that are instantiated without embedded boundaries)
* **C168 The flux sweep of a tube stores flux and pressure of every face** - The row loop with its three pointers on memory, the stores in the order of the code (all fluxes of a vector, then all pressures); equal to the sweep of C16 with one more component because stores to different addresses commute. Composition with the time integrator of C86. *Status: proved.* all parts, for patches with at least one face whose arrays do not overlap (FluxViews, FluxNoAlias)
* **C169 SAMRAI: the time step reaches the hierarchy** - Patch data per level and id; the member functions as updates of this state; induction over the list of calls. *Status: partial.* the property is false of the code: the two theorems are the exact condition under which it holds and its failure for all call sequences
* **C170 SAMRAI: every variable is filled from its own data** - The loop that builds the refine algorithm, with its counter; the fill as update of the scratch ids. *Status: partial.* true for the first variable, false for all others (samrai_fill_iff)
* **C171 SAMRAI: conservation across levels** - As C169, for the three functions in a row. *Status: partial.* false of the code; the theorem is its negation
* **C172 SAMRAI: time of a level** - Time points and counters of context and hierarchy; out-of-range reads are an outcome; induction over the steps. *Status: partial.* true for simulations that start at time zero; negations for restarts and for regridding of the coarsest level
* **C173 SAMRAI: refinement ratio and tags** - The tagging loop over patches, each call on the whole level; induction over the patches. *Status: partial.* tags proved; the ratio holds if and only if the option is two. SAMRAI's own box generation is not modelled
* **C174 SAMRAI: copies are independent** - Objects by address; copy, move, assignment. *Status: partial.* true of copy construction of the gridding algorithm; negations for the rest
* **C175 SAMRAI: views address the data of the patch** - Extents, origin and addresses of views, by the layout lemmas of C20. *Status: proved.* all parts; SAMRAI's memory layout (first index fastest, components outermost) is assumed as documented (samElem)
* **C176 SAMRAI: the conservative update** - Composition of the views with the update loop of C16. *Status: partial.* which elements are updated is proved for the maximum dimension; that these are not the elements of the state is shown by the other two
* **C177 SAMRAI: fluxes are computed on all faces of a patch** - Index boxes of ghost cells, faces and side data. *Status: partial.* all faces but the last; exact condition for the stores
* **C178 SAMRAI: cell coordinates** - Field algebra. *Status: proved.* all parts, in exact arithmetic
* **C179 SAMRAI: variables are registered once** - Invariant of the variable database, preserved by registrations; induction over lists. *Status: proved.* all parts; the variable database is modelled by its documented contract
* **C180 Pressure valve: gas in the ghost cells** - The loops over ghost cells with their assertions as a list recursion, idempotence of the replacement for cells visited twice, uniqueness of the mixture state for composition, temperature and pressure. *Status: proved.* all parts, in real arithmetic. valve_uniform_gas is the whole boundary with the Burke mechanism and without hypotheses about intermediate results; the last two theorems are the limits of the property
* **C181 Mass flow boundary: state and cells** - Composition of the average (C93), CompleteFromCons (C128), the velocity formula and the boundary boxes. *Status: partial.* state and cells proved for covered boxes; the flux for the lower side, by C82; for the upper side see massflow_right_wrong; the other theorems show what happens on other levels, where the property is false
* **C182 Cut cells: the stable time step looks at every open face and at no closed one** - The masked lanes and the chunked loop over rows of faces and stencils; the rows of faces are those of the first stencil cells translated by the stencil width; characterisation of the minimum by its lower bounds. *Status: proved.* all parts, in exact arithmetic, for HLL methods and methods that delegate to them; the speeds of a stencil are a parameter (see the properties of the signal speeds). cutStableDt_spec holds for every base method
* **C183 Cut cells: the regular fluxes are those of the face and its cells, covered cells have no influence** - The row loop of the flux sweep (C16, C23) with additional views for the geometry; decoding of the loaded numbers; case analysis of the slope masks. *Status: proved.* all parts, for non-empty views without aliasing; the masked base method, the gradient and the reconstruction are parameters. What NaN values in covered cells do inside the masked base methods is not modelled
* **C184 Cut cells: recomputing the complete state treats all cells with gas and none of the solid** - The row loop with the registers as state, induction over the chunks, the rows and the tiles; the lane function and the states where its versions agree are parameters, instantiated with the perfect gas. *Status: proved.* all parts; the statement about covered cells is proved for the version without vectors and refuted for the one with vectors. The row iteration is taken from C23
* **C185 Walls in the nodal pressure equation** - The loop that fills ghost values in place is proved equal to mirroring the indices by an invariant over the visited points; the scalings are composed side by side. The operator at a wall is reduced to the divergence of a flux that is odd in the normal and even in the tangential component, then summation by parts in both directions gives the global identities. *Status: proved.* all parts; the statement with cross coefficients is refuted. The global identities are for a domain of one patch without refinement; the multigrid iteration itself is not part of it
* **C186 Ghost cells and wall reference states belong to the data of the step** - A level holds cells, ghost cells and reference states; method, fills, corrections and regrids are arbitrary functions. Refinement: the program with an additional refresh before each level step is proved equal to the original one by induction over the recursion of AdvanceLevel, with an exact description of what advancing the finer levels does to the coarser ones; then induction over the coarse steps. *Status: partial.* the true parts are proved in full, the false parts are refuted by concrete runs. Boundary conditions with a memory or an explicit time are not covered by the fill functions
* **C187 The control of the gas turbine is told what flows through the machine** - Patches of faces with their own values, processes as lists of patches; counting shows that exactly one patch holds an end face. Induction over the history with telescoping sums over the cells of the tube and the mass balances of C77 for the plena. The faces and cells of the turbine as index boxes with the averages of C93. *Status: partial.* the tubes are proved in full. The mass flow to the turbine is taken at the wrong faces: what is measured, its exact difference to the flow through the boundary and witnesses are proved. The step of the tube is taken to be a conservative update with the fluxes of the coarsest level
* **C188 Mass flow boundaries let the demanded mass flow pass** - Accumulation over tiles and processes as in C93, with failing transformations as `Option`; the ghost cells are filled by the loops of C142. The total over a layer of ghost cells follows from the bijection between the layer and the box. The difference of the averaged inner state comes from the strict concavity of the root. *Status: partial.* three modes are proved to let the same total pass where the level covers the box of the average. False for the averaged inner state (another demand), on levels that do not cover the box (the demand shrinks by the covered fraction), and the modes with an averaged state write the whole side instead of the section; all three are proved for what the code does. The accuracy of the transformation is a hypothesis, met by the exact Riemann problem (exact_reaches)
* **C189 The coefficients given to the pressure solver reach all its levels** - The members are stores of optional arrays, a null pointer is `none`; a history is a list of calls. The loops over multigrid and refinement levels are recursions; an invariant (what exists, what was given last) is kept by every call. The averages are characterised by the equations between the final arrays, from which the bounds follow by induction over the levels. *Status: partial.* proved for the coefficient on all levels and for the operator of the finest multigrid level without harmonic averages. False for the coarser multigrid levels: without harmonic averages their cross coefficients and diagonal are never allocated and applying the operator dereferences a null pointer; with harmonic averages they are left out, and the ghost cells of the cross coefficients of the finest level stay empty. All of this is proved for what the code does
* **C190 The right-hand side of the pressure equation on two refinement levels counts every cell once** - The kernels are functions on all indices, a fine grid is a node box, the parallel sum is a sum over the list of grids. A local lemma shows that each grid adds the full weighting of the divergence of its own velocity, a list induction adds the grids up, three cases (uncovered, border, covered) give `composite_split`. The weak form follows from summation by parts and from the adjointness of full weighting and bilinear interpolation, over the plane with finite support. *Status: partial.* proved in the plane, away from walls and Dirichlet sides, for any number of fine grids. The statement about inflow is proved for the left and lower side and false for the right and upper side (inflow_high_wrong). Not proved: periodic images, walls that cut the border between the levels, three dimensions.
* **C191 The residual between two refinement levels belongs to the same equation as the right-hand side** - The kernels of `reflux` as functions on all indices, with the masks and grids of C190. A local lemma identifies what a grid computes with the divergence of `sig grad x` that the same grid computes for the right-hand side; the coarse part is compared cell by cell. The two negative statements are evaluated on a concrete arrangement of two grids. *Status: partial.* proved inside and outside of the fine level and, between the levels, for the part of the fine level (all fine pressures, all coefficients) and for affine coarse pressures. False between the levels for other coarse pressures (reflux_wrong) and with a diagonal (reflux_diagonal_wrong). Not modelled: periodic images, three dimensions, the cross coefficients there (the kernels do not read them).
* **C192 What leaves a tube at a joint enters the plenum, on every level and in every direction** - `ComputeNumericFluxes` of both multi-block contexts behind the fluxes of the single blocks: a fold over the connections in `Option`, on top of the averages of C98. Induction over the list of connections gives the frame and the written value, refined boxes are computed in closed form. The update of a tube is a telescoping sum. *Status: partial.* proved for joints in the first direction at the lower side of a plenum whose patches on the level cover the joint. False at the upper side (joint_upper_wrong), if the patches of the level do not reach the joint (joint_unreached, joint_rest_wrong), in the other directions (sideways_uncoupled) and if only one of the blocks has the level (joint_missing_level). The tiles of the plenum's faces are assumed disjoint.
* **C193 A valve between a tube and a plenum is a wall when closed and a passage when open** - The two `FillBoundary` of `MultiBlockBoundary` on one patch over an arbitrary type of states, with the loops as folds over the index lists and the reflection of the other boundary conditions; a general lemma on loops whose sources are never destinations gives the mirror image. `WrapBoundaryCondition` is a fold in `Option`. *Status: partial.* proved for closed valves and for valves that are open for air, or none. False for a valve that is open for fuel: it changes cells inside of the tube (fuel_changes_inside), which ones depends on the patches (fuel_depends_on_patches). Ghost cells of the plenum are copied also where no state is stored (plenum_unset).
* **C194 Repeated smoothing solves the pressure equation** - The error of a sweep is a linear map on the fields that vanish outside of the unmasked nodes of the patch. The energy (weights times squared gradients minus the diagonal term) is a symmetric positive definite form on them: a field of bounded support without gradient vanishes. A Gauss-Seidel update lowers it by the squared residual over the diagonal; a Jacobi sweep lowers it because in each cell the energy is below three times its diagonal part. By compactness of the unit sphere a linear map that lowers the energy of every nonzero vector does so by a fixed factor. Existence follows from uniqueness in finite dimension. *Status: proved.* The conditions are sharp in the following sense: Jacobi diverges in cells that are thinner than the square root of three (jacobi_diverges), and with cross coefficients (rotation) Gauss-Seidel can diverge (gs_rotation_diverges). One patch with fixed ghost nodes, two dimensions, exact numbers.
* **C195 Every output adds one row to the probe file of each block** - The output is a fold over the blocks that adds a row to the file of the block; a run is a fold of outputs in `Option` (division by zero is `none`). The rows of every file are an invariant of the run. The arrays of coordinates are modelled as flat arrays with the index formulas of the two memory layouts. *Status: partial.* proved for one plenum with any number of tubes. False for several plena: they share one file (plena_share_file) and their coordinates are mixed up (plenum_probes_scrambled); without plenum or without probes the output divides by zero (no_plenum_undefined, gas_no_probes_undefined); tubes that the option n_tubes does not count read behind the array (tube_probe_outside).
* **C196 A step of the second order cut-cell method depends only on the states at its start** - The memory of the method (one set of gradients with the level they belong to, reference states of each level) is a state in `Option` (reading undefined memory is `none`) on which the operations of the level integrator of C13 act. The specification is a recursion over sweeps without memory. Equality by induction over the sweeps with the invariant that the counter is a multiple of the dimension at the begin of each sweep. *Status: partial.* proved on single blocks in three dimensions for Godunov and Strang splitting, and for every list of sweeps. False in two dimensions, where the third reference gradient is read beyond the array (gradient_plane_undefined; gradient_plane_partial shows the same claim with a longer array), for coupled blocks, whose contexts drop the call that computes the gradients (gradient_blocks_undefined), and for a type-erased Strang splitting in three dimensions, whose reference states are renewed in the middle of sweeps (gradient_erased_groups). Cut cells whose reference state cannot be integrated are the subject of C108 (reference_stale).
* **C197 Smoothing the pressure equation for linear velocities converges for all cell sizes** - As C194, with the energy of C144 (squared cell gradients plus a multiple of the squared mixed difference). In each cell the energy is at most 8/3 of its diagonal part for all cell sizes, which is less than the factor three that the damping 2/3 allows. *Status: proved.* One patch with fixed ghost nodes, two dimensions, exact numbers, coefficients with one component (no harmonic averages).
* **C198 The state of the TChem reactor is consistent after every history of calls** - Model the members of the reactor and the pressure of the library as a record and each call as a function. An invariant over all histories gives the relations; the Newton iteration is the one of C126. The places where the invariant fails are shown with concrete histories. *Status: partial.* The missing parts are false of the code: the density after SetPressure, SetMoleFractions of a text and SetPressureIsentropic, the energies after SetInternalEnergy and UpdateThermoState at the cached temperature, and the first update with uninitialised memory. The integrator is a parameter; its source term is taken to depend on density, temperature and fractions only.
* **C199 The Matlab interface for kinetics treats each cell on its own** - Model the loop over the cells with the reactor as its state. The invariant between two cells is that the cached heat capacities belong to the cached temperature; density and pressure are then independent of what was there before. *Status: partial.* The missing parts are false of the code: the energy of a cell that ends with the same temperature as the cell before, the enthalpies at a given temperature and the choice of a second mechanism.
* **C200 A coupled context is ready before each step and its gridding algorithm shows what is computed** - `Model/MultiBlockFirst.lean`: `PreAdvanceHierarchy` of both versions over the contexts of `Model/Context.lean`; a heap of hierarchies, to which the blocks of a context and its gridding algorithm refer, with the operations backup, restore and step. Invariants over all histories: the second version keeps both lists of references equal; in the first the references of the gridding algorithm stay those of the constructor, while those of the blocks are new after a restored backup and never overlap the old ones again. Readiness by the definition of `PreAdvanceHierarchy` of a block. *Status: partial.* Proved for the second version of the context (as many tubes as plena or more, the known loss of plena by its copies is C97). False of the first version: a new or copied tube is never prepared (`first_tubes_never_ready`), and after any history with a restored backup the output never changes again (`first_output_frozen`, with a concrete run in `first_output_wrong`). The first version has the property for the plena and until the first restored backup. The hierarchies are values of an arbitrary type and a step is an arbitrary function of all of them.
* **C201 The Matlab files of a cut-cell domain show every cell of the finest grid** - `Model/MatlabGrid.lean` on top of `Model/GridOutput.lean`: gathering per rank, filling of the visited plane from the coarser level, the two files. `Spec/MatlabGrid.lean` says how a reader understands the files. Induction over the levels, column-major positions by induction over the dimension. *Status: partial.* Proved in up to two dimensions for levels of disjoint patches whose domains refine each other and whose component zero does not vanish (the code takes a zero density for an uncovered cell, as in C109). In three dimensions `matlab_grid_planes` says exactly what is written: the lowest plane is right, elsewhere cells that the finest level does not cover are zero; `matlab_grid_3d_wrong` is a concrete case. The text format of the header numbers is not modelled.
* **C202 The text output for Matlab is a table with one column for each name** - `Model/MatlabText.lean`: padding, names, lines; `Spec/MatlabText.lean`: the words of a line. Induction over the fields with the state of the current word. *Status: partial.* Proved for the lines of numbers, for any way of printing numbers as words of at most 22 characters with an optional leading blank. The part about the line of names is false for every list of species (`matlab_text_header_wrong`).
* **C203 A tube behind a slanted wall sees the gas at that wall** - Model/SlantedConnection.lean: sums over tiles and processes as folds (as in C95), the test of the normals, the loop over the directions with its dropped shift, ghost cells with MakeRotation and ReduceStateDimension. The mean is proved by reducing the folds to a Finset sum; the ghost cells use that a rotation preserves products of vectors and the completion of states of C96. *Status: partial.* The average is proved to be the mean over the cells of the connection for every distribution, within the bounds of the data, and the ghost cells are characterised. The part of the statement about the cell in front of the wall is false of the code: the result of Shift is dropped, so the cell in front never contributes (slanted_front_ignored, slanted_front_wrong); slanted_full_cells_partial gives the cases in which the result is still right.
* **C204 The second order flux of a vector of faces next to cut cells** - Model/MusclMasked.lean: vectors of n lanes, the test whether any face is open, masked slopes, masked CompleteFromCons and Flux as parameters with the perfect gas as instance; NaN of the signal speeds as a separate outcome. The lane of an open face is reduced to the scalar definitions of C29 (musclLeft, musclRight, hllFlux). *Status: partial.* All of the statement is proved for open faces, and for closed faces with the Godunov method or in vectors without an open face. For closed faces with the HLL method and the perfect gas the statement is false: muscl_gas_closed_nan shows that the flux of a closed face is not a number as soon as another face of the same vector is open.
* **C205 Every level of a hierarchy without walls finds its own geometry and those of all coarser levels** - Model: boxes with refine/coarsen/coarsenable after AMReX, the constructor loop with its abort as `none`, the loop of BuildRegularSpace, the lookup by std::find with the past-the-end read as `none`, and the level geometries of PatchHierarchy. Proof: coarsening inverts refinement, induction over the level from which the loop coarsens, induction over the levels; the first match of the lookup has the right geometry since all entries share the physical data. *Status: proved.* That AMReX can build the levels of an all-regular geometry is the hypothesis `hok`; integers do not overflow.
* **C206 Integrating with the CVODE solver returns the solution at the end of the interval, observed or not, or reports a failure** - Model/CvodeDriver.lean: the library is a function that gives for every call a return code, a time and a vector; the driver with its loop (fuel for the number of passes looked at), the copies between vectors with the write behind the end as an outcome. Spec/CvodeDriver.lean states what the library promises. Induction over the calls of the library up to the first one at or behind the end; the negations by a concrete library for y' = 1 and by induction over the fuel. *Status: partial.* Proved without observer when the library succeeds (cvode_normal), and the order and values of the observed steps (cvode_observed). The rest is false of the code: an observed call returns the solution at the last internal step, beyond t0 + dt (cvode_observer_overshoots); return codes are ignored (cvode_flags_ignored), so that failures look like results and an observed call that cannot get on never returns (cvode_hangs); vectors of another size are written behind the end or completed with leftovers (cvode_sizes); clones lose the root function (cvode_clone).
* **C207 ODE solvers are made by name, whatever the order of static initialisation** - Model/OdeFactory.lean: the map as an association list with the insertion of std::map, the entries of the two solvers with a violated assertion or a wrong static_cast as `undefined`. Induction over the registrations; two lists with the same set of consistent registrations give the same map. *Status: partial.* All of it is proved except the last sentence, which is false: the default options have the type RADAU, and the entry of CVode asserts its own type and then reads a member the object does not have (factory_cvode_default).
* **C208 Transmissive boundaries on a single patch copy the nearest interior cell, in any order of the sides** - Model/PatchTransmissive.lean: the loop of ForEachIndex (C19) as a fold over the indices that loads and stores one cell after the other, a load outside of the view as `none`. The sources lie outside of the cells that are written, so the fold is a simultaneous copy (induction over the list of indices); the order of sides follows pointwise. *Status: proved.* The load outside of the view, which patch_transmissive_small shows for patches without interior cells, is the assertion of the view.
* **C209 The advective fluxes of the compressible advection solver follow the hierarchy through every history** - Model/AdvectiveFluxes.lean: both vectors of level data as lists whose entries may be default constructed, accesses outside as `none`, values that nobody wrote as `none`. The two reset functions with the virtual call between them, the copy constructor and histories of operations. Spec/AdvectiveFluxes.lean says what fits a level. Induction over the history with the invariant that all levels fit and the vector is as long as the largest number of levels. *Status: partial.* The last sentence holds for the cells and faces of the boxes only: values in ghost cells are not copied, which advective_fluxes_copy_not_deep shows. Periodic images are left out of the copy.
* **C210 Components of a state are numbered through all variables without gaps** - Model/StateComponents.lean: the running counter and the pointer of the loop over the variables, with reads and writes through the pointer. Spec/StateComponents.lean: all numbers of a state as one list. Induction over the variables. *Status: proved.*
* **C211 Coupled blocks: one boundary per connection and level, independent copies, every block regridded once** - Model/BlockGridding.lean: shared pointers as addresses of a heap, the two nested loops with their counters, the loops that make new objects, and the regridding as a fold of updates. Spec/BlockGridding.lean: what is seen through the pointers. Induction over the lists. *Status: partial.* Independence holds for tubes and plena; the valves are shared with the original, which block_gridding_copy_shares_valves shows. The arrays inside of a boundary are not modelled here.
* **C212 Levels made while the initial grids are searched hold the initial condition on their last boxes** - Model/ScratchLevels.lean: the vector of levels as a list, push and replacement, and the initial condition as a function of level, time and boxes. Induction over the sequence of requests. *Status: proved.* The calls themselves are made by AMReX and are arbitrary here.

## Disagreements between the code and its properties

Each entry is a theorem about the model (named) or, where marked *read*, an observation made while reading that is not modelled.

* C04/C46 Copying the AMReX context loses callbacks, clocks and regrid bookkeeping; a retry after a failed step reads undefined clocks (`rollback_undefined`, `context_copy_*`, `faces_copy_null_2d`, `multiBlock_copy_loses_plena`).
* C06 An output fires twice after a failed attempt (`output_duplicated_after_failure`).
* C14/C47 Level clocks and cycle counts after a regrid inside of a step (`clock_wrong_after_regrid`, `regrid_loses_cycles`).
* C16/C23 Two-dimensional empty views (`updateSimd_empty`, `forEachRow_empty`).
* C20/C21/C22 Overlapping strides, empty sub-ranges, `last` of dynamic spans (`strided_overlap`, `subspan_empty_misplaced`, `span_last_dynamic`).
* C24 `gather_statistics` averages averages (`gather_differs`). C25 Move assignment to a running timer loses a measurement (`timer_lost`). C26 The pool hands out memory in use (`pool_aliasing`, `pool_cycle`).
* C27 The Newton iteration accepts negative residuals (`newton_negative_residual`). C50 The throwing assertion mode is inverted (`assert_throws_inverted`).
* C28 `NoLimiter` overshoots. C29 The vectorised HLL flux vanishes for vanishing signals (`hll_degenerate`); the masked Einfeldt signals divide zero by zero in padding lanes (`einfeldt_masked_nan`). C33 The vectorised HLL solver leaves dependent variables stale.
* C30 The sequential stable step ignores the last stencil, tiles ignore stencils across tiles (`stableDt_seq_differs`, `stableDt_tiles_differ`). C32 Burgers overshoots next to a boundary (`burgers_boundary_overshoot`).
* C34 The shallow-water flux uses the momentum as velocity (`sw_flux_false`).
* C35 Changing the public member `gamma` alone breaks the conversions (`gas_gamma_only_fails`).
* C39 Reflective conditions in the wrong order leave stale corners. C40 A negative valve offset disables the interval. C57 Assertion of the generic valve.
* C43 Ball and cone (`ball_wrong`, `cone_not_distance`). C42 Empty polygon (`polygon_empty`). C58 Straight tube (`tube_straight_wrong`).
* C44 `TagBuffer` in every dimension. C59 Vectorised gradient detector (`gradRow_wrong`). C60 `ConstantBox` (`constantBox_wrong`).
* C48 Mach scaling of the characteristic reconstruction. C61 `ReconstructInvers`.
* C54/C56 HLLEM in three dimensions, with Larrouturou's splitting, and its Riemann solver (`hllem_scalar_3d_stale`, `hllem_larr_scalar_sign`, `hllem_array_3d_contact_false`, `hllem_solve_*`).
* C63-C65 Mach scaling of the scalar mixture functions, composition in `SetIsentropicPressure`, energy balance of the isentropic expansions.
* C69 `TimeIntegrator2` divides by the volume fraction (`cut_update2_unbounded`). C70 Covered cells in mixed SIMD packs keep a value (`cut_row_covered_mixed`). C72 Next to doubly shielded faces mass crosses the wall (`kbn_wall_exchange_wrong`). C73 The flux registers of the cut-cell context ignore volume fractions, open fractions and the stabilisation (`cut_reflux_wrong`).
* C74 Below the switch temperature and for lean gas the Arrhenius source term creates fuel of 2^-26 in every step (`arrhenius_cold_drift`, `arrhenius_negative`, `arrhenius_lean`). C75 The delay is misplaced in the logarithm of the rate (`ignition_delay_wrong`, `ignition_small_tau`). C76 The derivative lacks `max(Y, eps)` (`ignitionDelay_deriv_wrong`), the search overshoots to negative temperatures (`temperatureForDelay_overshoot`).
* C77 The pressure ratio leaves its range for other speed limits (`compressor_ratio_wrong`), power is lost at the maximal speed (`control_energy_wrong`), averages oscillate for time steps above one (`control_averages_wrong`), the speed can become NaN (`control_fails`). *Read*: the efficiency enters the compressor power twice (`control_compressor_power`), `ControlFeedback<PlenumRank>` uses `ooRspec` for the temperature and `ControlFeedback<1>` does not, areas and volumes that depend on others are not recomputed from the program options.
* C78 Passive scalars of the ghost state are not rescaled with the density (`turbine_ghost_scalars`), the inflow velocity uses the tube temperature instead of the expanded plenum gas (`turbine_ghost_enthalpy`), the expanding outflow loses total enthalpy (`turbine_ghost_expanding`).
* C79 The subsonic test uses the magnitude of the velocity instead of its normal component (`pressure_outflow_wrong`). *Read*: supersonic inflow is extrapolated too.
* C80 The density uses the exponent 1/(γ+1) instead of 1/(γ−1): the Mach number of the ghost state is too large (`mach_boundary_wrong`).
* C81 For supersonic flow the density is that of the sonic state but the velocity is not limited: the mass flow exceeds the required one even if the inner state has it already (`jirasek_wrong`). *Read*: the operator is `noexcept` while the Newton iteration throws, so a failed iteration terminates the program; in one dimension `(dir_v + 1) % Rank` is the normal direction again and its velocity is counted twice.
* C82 `MassflowBoundary.cpp:116` tests `m <= -(2.0 - uL)` where `-(2.0 + uL)` is needed (`massflow_right_wrong`).
* *Read*: the Einfeldt signals for `IdealGasMix` use half of the Roe speed of sound in the scalar and the masked version and all of it in the unmasked array version (`src/equations/ideal_gas_mix/EinfeldtSignalVelocities.hpp:25-116`).
* C84 `lambda` and `lambda_n` are exchanged in the isentropic relation and the velocity uses the inner density: for an accelerated flow pressure, total enthalpy and mass flow are all too large (`massflow_cut_wrong`).
* C85 The norm of the velocity is used instead of its component in the direction of the normal: for a gas that moves against the normal or obliquely the states are not connected by a shock (`pre_shock_state`). *Read*: the state behind the shock is called `pre_shock`, the one in front `post_shock`.
* C87 The function is documented as diameter and used as area (`axial_source_needs_area`); the slope and the area belong to the right face of a cell (`axial_source_shifted`); the stored slope has no ghost cells while the loop covers grown tiles (`axial_source_reads`).
* C89 The user-written copy constructor of `DiffusionSourceTerm` does not copy the options (`diff_copy_loses_options`); `ComputeStableDt` returns the largest double although the explicit step is unstable for large steps (`diff_unstable`).
* C90 The source is dropped for gas that flows towards the axis (`axi_source_inflow_dropped`), the integrated time can be shorter than the time step (`axi_source_time`), and species densities change at the wrong rate (`axi_species_wrong`).
* C91 If fuel arrives late the missed ignitions are made up for in consecutive steps (`ignite_catches_up`); with the default offset zero the first ignition waits for one interval (`ignite_offset_zero`).
* C93 The mean over a box that is only partly covered divides by the number of all cells (`average_uncovered`). *Read*: the components of a complete state are averaged independently, so the average of complete states is in general not a complete state; `AccumulateState` is not reduced over processes.
* C94 coarsening with an integer ratio of the cell sizes reads one element behind the source array in the last ghost cell (`interpolate_reads_past`, `interpolate_ratio`).
* C95 the averages of connections in a direction other than the first are stored at index (i0, 0, 0) outside of the reduced box (`reduced_index`).
* C96 reducing a plenum state to one dimension drops the transversal momentum but keeps the total energy: the pressure grows by (gamma - 1) times the transversal kinetic energy (`reduce_pressure`). *Read*: ghost data for which the total volume is zero are taken from uninitialised memory unless their density happens to be not positive.
* C97 ComputeMultiBlockBoundaryData pairs the first connections of the whole list with the conditions of the block: a tube whose only connection is not the first is never updated, and a tube with the connections 1 and 2 updates the condition of connection 2 with the plenum of connection 1 (`block_updates_missed` and the example); a block without connections divides by zero (`block_updates_none`).
* C97 the copy constructor of the multi block context takes the smaller of both numbers of blocks for the plena and does not copy the reference state function (`copy_block_context`). *Read*: PreAdvanceLevel uses the embedded boundary of the first plenum for every plenum; MakeMirrorBox refines `level` times with the ratio of that level only.
* C98 on the upper side the averaged fluxes belong to the lower faces of the last cells (`get_boundary_upper`).
* C100 the pressure is not unique up to a constant: on a grid with even numbers of cells the operator annihilates checkerboard fields (`helm_checkerboard`).
* C101 `mlndhelm_adotx_ha` uses the x-coefficient also in the y-terms: with coefficients that depend on direction it is not the divergence of a flux (`helm_ha_not_conservative`).
* C102 `LimitSlopes` does not limit: an advected step profile overshoots at half of the stable time step (`lm_overshoot`).
* C103 the diagonal of the linear operator is set only if alpha_p > 0 and never reset: `InitialProjection` or a pseudo-incompressible step after a compressible one solves with a stale diagonal and the result is not free of divergence (`lm_initial_projection_stale`).
* C103 *Read* (not modelled): the three-dimensional branch of `ComputeKCrossM_` writes the third component to index 1; cross coefficients and diagonal are not averaged to the coarse multigrid levels; `res_cf_contrib` in the CstVel file uses the weights of the LinVel stencil.
* C104 a step that returns TimeStepTooLarge in its second advection has already replaced the state by the explicit half step of the sources (`lm_step_failure_changes`).
* C105 IsConnected compares the offset between the centroids (instead of the position of the neighbour's centroid) with the boundary centroid, so that neighbours of a cut cell behind open faces are not counted and the limited reconstruction overshoots them (`md_limiter_misses_open_neighbour`).
* C106 the comparison `betas[i] >= betas[j] && alphas[i] >= alphas[j]` passed to std::sort is not a strict weak order (undefined behaviour); with libstdc++ a closed face can be sorted first and an assertion fails (`grad_sort_not_an_order`).
* C106 a fluid cell whose only open faces are opposite ones (channel one cell wide) fails an assertion; without assertions the state of a cell with index 0 is read (`grad_channel_fails`).
* C107 HGridReconstruction2 does not reflect the gradient of the mirrored state (the base class does) (`hgrid_wall_gradient_not_mirrored`).
* C108 IntegrateCellState accumulates the gradients in the second and third direction from the first one (`reference_gradient_wrong`).
* C108 ComputeBoundaryStates ignores a failed integration and stores the state of the previous cell (`reference_stale`).
* C108 the stabilised flux omits the doubly shielded part of a face (`my_stable_loses_doubly_shielded`).
* C108 GetAbsoluteUnshieldedCentroid ignores the covered part of the face itself and the doubly shielded part (`unshielded_centroid_wrong`).
* C107/C108 (reading) the overload of IntegrateCellState for one direction is called with one argument too many and cannot be instantiated; LimitGradients hands sub-views to a limiter that reads neighbours outside of them.
* C109 The output takes a cell of a fine level only if its value is not zero, so a fine zero shows the coarse value (`hdf5_zero_is_overwritten`). With cut cells on several ranks the fractions of a cell are added up (`hdf5_cut_ranks_add_fractions`), and the restricted output drops coarse cells (`hdf5_cut_box_loses_coarse`).
* C110 A probe that measures an exact zero on the finest level returns the value of a coarser level (`gather_zero_is_replaced`).
* C111 A program that stops between `/data` and `/times` and is started again with the same file writes all later times one entry too early (`hdf5_crash_misaligns`); if it stops in the first output no time is ever recorded (`hdf5_crash_in_create_loses_times`).
* C111 The append uses the extents of the file for the memory of the new fab: if the number of levels has changed since the first output, cells are mixed up or memory behind the fab is read (`hdf5_shape_change`, `hdf5_shape_change_mixes_cells`).
* C111 `h5_load_several_timepoints_variable` computes the reshaped array and then returns the array without reshape (`hdf5_several_reader_mixes_cells`).
* C113 All tubes get the probes of the first tube (`tube_probes_are_first_tube`, `tube_probes_wrong`).
* C113 The check for old tube files uses the path without number and extension, so a new run appends to the files of the old run (`tube_probe_files_not_renamed`).
* C113 `which_block = 0` without plenum writes tube 0 (`output_block_no_plenum`), negative values access memory before the list of plena (`output_block_negative`), no value selects the second plenum (`output_block_only_first_plenum`).
* C114 Assignment of a handle to itself closes the object (`handle_self_assignment_closes`).
* C115 the reconstruction of the primitive MUSCL-Hancock method can give a negative density for positive data and half of the stable time step; an assertion fails (`muscl_prim_negative_density`).
* C115 the limiter has an absolute threshold of 1e-12: the order of the method depends on the units (`muscl_prim_limiter_units`).
* C116 with a limiter that does not vanish when its first argument does, covered cells influence the slopes, because only the left amplitudes are cleared (`muscl_char_masked_central`).
* C117 the interpolation to faces is not exact for parabolas and can give negative densities; the method is of third order in time only (`rk3_interpolation`).
* C120 the tables jump at 1000 K: enthalpy of nitrogen drops (`burke_enthalpy_drops`) and some energies of oxygen belong to no temperature (`burke_energy_gap`); above 5000 K the heat capacity at constant volume becomes negative (`burke_cv_negative`).
* C120 the array version of the tables clamps at 300 K, the scalar one at 299.999999 K (`burke_thermo_lane_window`).
* C121 after `Advance` the reactor reports the enthalpy of the last stage of the ODE solver; the kinetic source term stores it (`reactor_stale_after_advance`).
* C122 the scalar `SetMassFractions` clips negative entries, the array version takes absolute values (`mass_fraction_lanes_negative`).
* C123 `GetMoleFractions` returns concentrations (`get_mole_fractions_partial`); a new reactor reports the production rates of a vacuum (`production_rates_stale`); `AdvanceAndFindMaxdT` never updates the old temperature (`max_dT_wrong`).
* C125 malformed texts: duplicates, a malformed number at the end, a missing number, zero sums and unknown names after known ones are not handled (`composition_duplicate`, `composition_malformed_number`, `composition_undefined`, `composition_exception_state`).
* Not compiled (CMakeLists.txt:351 lists Burke2012 only; the others include a path that does not exist): in `Zhao2008Dme.cpp` the molar mass of HCCOH is 60.18 instead of 42.04, so that reaction 139 creates mass, and that of HE is the one of neon. Found by a script over the source, not modelled.
* C126: the tables of the mechanism jump at 1000 K; for a target inside such a jump the Newton iteration ends with success although the energy of the returned temperature differs from the target by up to the jump (`set_energy_gap`).
* C129: `IdealGasMix::Flux` returns without writing the flux when the density is not positive; the caller's variable keeps its old content (`igm_flux_vacuum`).
* C128: `CompleteFromCons` rescales the partial densities so that they add up to the density: the masses of the species are changed if they do not (`igm_complete_species_sum`).
* C130: `KineticSourceTerm` stores the energy with the enthalpies of the last temperature at which the solver evaluated the right-hand side, so that the energy of the cells is not conserved (`kinetic_energy_drift`).
* C131: after the return code -3 `RadauSolver::integrate` passes the address of `system` where the callbacks expect `IntegrateData_` (`radau_retry_undefined`); both halves start at t0, end at (t0+dt)/2 (`radau_retry_duration`) and start from what the failed attempt left (`radau_retry_twice`).
* C132: `FlameMasterReactor::operator=` does not assign the array state (`reactor_assign_array`, `reactor_assign_wrong_tables`); `RadauSolver::clone` drops the tolerances (`reactor_copy_tolerances`).
* C133: a log message of one character is not written (`log_short_message_lost`); ranks other than 0 that log overwrite the log of the previous run (`log_other_ranks_overwrite`).
* C135: `GetMeanValueInBox` adds the sum over the whole array of a patch, ghost cells included, once for each tile: the pressure the valve boundary sees is multiplied by the number of tiles (`meanValue_multiplied_by_tiles`) and cells near patch boundaries count several times (`meanValue_weights`).
* C136: `InterpolateFrom1d` starts its mean at `lower_bound + 1`: the leftmost position of a cell is left out (`interp1d_mean_of_positions`), a cell with one position gets the value of the next position, which is outside of it (`interp1d_few_positions`); data at the cell centres of the grid come back shifted by one cell (`interp1d_cell_centres_shifted`).
* C137: a direction given as an option is not checked (`option_direction_unchecked`); a second script inherits the global variables of the first (`script_options_leak`); with `--help` the script is executed all the same.
* C138: the scalar and masked `EinfeldtSignalVelocities<IdealGasMix>` use half of the Roe speed of sound, the array version the whole one: the same cells get different fluxes depending on the execution tag (`igm_einfeldt_versions_differ`).
* C139: array and masked version of the primitive MUSCL-Hancock method reconstruct the temperature of the right state with the wrong sign: a stagnant gas with a linear temperature profile gets a mass flux (`igm_muscl_versions_differ`); the array version limits all species by the limiter of the first one and creates species that neither cell contains (`igm_muscl_lane_negative`); the scalar version changes the mass fraction of a species which is constant everywhere (`igm_muscl_scalar_inert`); the masked version does not write the flux of a chunk without open faces.
* C140: the characteristic method of the mixture hands half of dt/dx to a predictor which takes half of it again: a quarter of a time step (`igm_char_quarter_step`); the loop of the array version runs over rows times lanes and leaves the array (`igm_char_array_loop`).
* C141: nothing checks that `scratch_gcw` and `flux_gcw` suffice for the stencil and the splitting; with too few the result silently depends on the patches (`too_few_ghost_cells`).
* C141: `StrangSplitting` of a source term around two dimensional Strang splitting, or three dimensional Strang splitting through `AnySplitMethod`, steps each direction four times without exchanging ghost cells; the default options (4, 2) only suffice for twice with any stencil (`strang_direction_counts`, `default_ghost_cells_source`); the examples which choose 4 and 3 stencil widths are right (`nested_strang_ghost_cells`).
* C142: `boundary_section` of the wall, turbine and Mach number boundaries is given once in cell indices and used on every level: at an upper side it overwrites cells in the middle of a refined domain, and the ghost cells beyond it are not filled (`section_level_wrong`).
* C143: `IsentropicPressureBoundary` of the one-dimensional mixture compares signs as if the boundary were on the right: at equal pressure all flows get the velocity `-|u|`, outflow at the left side is slowed down instead of accelerated (`isoVelocity_wrong`); its options `efficiency` and `boundary_section` are read and never used. The version with embedded boundary sets the outer pressure at constant temperature before the isentropic expansion, which then does nothing: the ghost state of every subsonic state is at rest (`igmGhostCut_rest`).
* C65: `cutcell::ExpandState` compares total enthalpies after `SetIsentropicPressure` has already accelerated the gas: the difference is zero for every outer pressure below the inner one, the efficiency has no effect and a flow in negative direction is reversed (`mixExpandState_speed`).
* C145: with the linear velocity operator the correction of the velocity leaves the divergence given in `lin_projection_partial` (the projection is approximate); `mlndhelm_normalize_ha` divides by `-8` instead of `-3` times the weights (`lin_ha_normalize_wrong`); `mlndhelm_res_cf_contrib` of both operators still has the weights 2/6 and 1/6 of AMReX's operator, which belong to neither of them (`res_cf_wrong`); `mlndhelm_adotx_ha` reads `sx` for `sy` as in the other operator (`lin_ha_const`). The kernels for three dimensions have empty bodies.
* C147: `MakeNewLevelFromCoarse` interpolates only the conserved components, the pressure, the speed of sound and the other derived components of a new level stay uninitialised (`regrid_complete_wrong`), and it uses the ratio 2 whatever `refine_ratio` is (`create_ratio_wrong`); `InitializeHierarchy` averages only the conserved components (`initialize_complete_wrong`).
* C149: `MultiBlockIntegratorContext2::CopyScratchToData` and `CopyDataToScratch` do not test whether a block has the level and `GetTimePoint`/`GetCycles` read the level of the first plenum, which is out of range if blocks have different numbers of levels (`mb_bad`). `PostAdvanceHierarchy` is never called for the tubes, so the time stored for a level of a tube stays wrong after a regrid in the middle of a step (`mb_tube_times_wrong`) and the feedback functions of the tubes are never called. `MultiBlockSourceTerm::AdvanceLevel` does not test whether a tube has the level, unlike `MultiBlockIgniteDetonation`. The copy constructor does not copy the function for the reference states.
* C151: `WriteCheckpointFile` does not store node and face data (`checkpoint_forgets_nodes_partial`), nor geometry and refinement ratio, which are not checked when reading (`checkpoint_ratio_unchecked_partial`); neither is the title line, nor whether cycles and time points could be extracted (zeros are used instead). A cut-cell hierarchy has `max_number_of_levels` levels whatever the file holds: fewer in the file leave empty levels, more throw (`cut_checkpoint_levels_partial`); the plain version reads more levels than allowed, and the constructor of `GriddingAlgorithm` then writes out of range (`checkpoint_too_many_levels_partial`).
* C151: A crash while a checkpoint of several blocks is written over an older one leaves a mixture that is read without complaint (`blocks_mixed_partial`). `serialize` of a `Duration` changes the object that is saved (`saving_duration`). The time of the opening of `GenericPressureValve` is not stored (`restart_forgets_opening_partial`). The continued run regrids at the beginning of the first step, the restarted run does not (`restart_skips_regrid_partial`).
* C151: not modelled: examples/AMReX/EB/3D/MultiTube.cpp and ConvergentNozzle.cpp call `context.GetMpiCommunicator()` on a moved-from context when they restart; examples/AMReX/EB/2D/SEC_Plenum_Arrhenius.cpp writes the tubes to `Tube_<i>` but reads the tube from the unmodified path and does not set its counter registry after a restart; the constructor of `GriddingAlgorithm` uses its argument `hier` after it was moved.
* C153: `MakeUniqueComponentNames` does not check the names it makes: the components a, a and a_0 become a_0, a_1 and a_0 (`debug_names_not_unique`).
* C153: `AddSnapshot` renames a snapshot to `<name>-0` without checking whether it exists: the directories of four snapshots of one name are x-0, x-1, x-0 and x-2 (`debug_directories_collide`). `FluxMethod::ComputeNumericFluxes` adds `Fluxes_<dir>` in every sweep, so from the third sweep in one direction per cycle on (Strang splitting, subcycling) plot files overwrite each other.
* C153: `GatherFields` uses the geometries of the first field of a partition for all of them (`debug_gather_geometry`).
* C155: `MakeViewImpl` gives a vector variable the extents of the first `Rank` directions only; its components are then a product of these extents apart, not the size of the Fab, which is wrong if the Fab has more than one cell in another direction (`vector_views_wrong`).
* C155: `Row` hard-codes two components for vector variables and `End(row)` of a vector is not the end of the row (`row_components`, `row_count_vector`); harmless as all equations begin with a scalar variable and only pointers and strides are used.
* `Complete::operator=(const CompleteBase&)` and `BasicView::operator=(const ViewBase&)` (State.hpp:351-353, 427-430) have no return statement; calling them is undefined behaviour (not modelled).
* C157: in `MyFluxMethod::ComputeNumericFluxes` the thread of every tile combines the stabilised fluxes of all faces of the patch (`face_box = fluxes_s[mfi].box()`), so threads race with each other's stores; a stale stabilised flux can remain (`cut_sweep_race`).
* C157: `ComputeCutCellFluxes` visits the cells enclosed by the faces of the patch only, so the flux of the part of the first face that is shielded by the cell in front of it is never computed (likewise for the last face). With `flux_gcw = 0` the two patches at an interface then use different fluxes for the same face and mass is not conserved (`cut_sweep_first_face`, `cut_sweep_patches_disagree`).
* `FluxMethod::operator=(const FluxMethod&)` and `MyFluxMethod::operator=(const MyFluxMethod&)` (cutcell/FluxMethod.hpp:60-62, cutcell/MyFluxMethod.hpp:54-57) have no return statement; calling them is undefined behaviour (not modelled).
* C159: `ComputeIntegrationPoints` looks for the parts of the mirror polygon in the 3x3 neighbourhood of the cell only. For a slightly sloped wall near a cell face the mirror polygon reaches further than one cell width beyond the cell (`hgrid_mirror_leaves`), so the volumes of the integration points do not add up to the area of the polygon.
* C161: `PreAdvanceLevel` of the cut-cell context calls `PreAdvanceHierarchy`, which sets the mirror states of all levels to zero and their reference states to those of a closed wall; `MultiBlockIntegratorContext2::PreAdvanceLevel` sets the states of the tube for the given level only. The solvers call it for the finer levels before the fluxes of the coarser level are computed, so every level but the finest computes its fluxes at a connection with a state of density zero behind the wall (`coarse_levels_lose_tubes`).
* C161: the mirror box of a connection with a normal is not refined (`MultiBlockBoundary2.cpp:499`, `MultiBlockIntegratorContext2.cpp:266`), so on finer levels cells far from the connection are coupled to the tube (`coupled_box_misplaced`).
* C162: `CoarsenConservatively` of the cut-cell context calls `EB_average_down` on `scratch`, which `ResetHierarchyConfiguration` allocates without a factory, so AMReX falls back to the plain mean and the values inside the wall enter the coarse cells (`eb_coarsen_plain`, `eb_coarsen_wrong`).
* C163: `MakeIndexSpaces` builds the geometry of every level from the wall function on its own mesh; the volume of a coarse cell is not that of its fine cells, so refining a cell at a curved wall changes the amount of gas (`eb_geometries_differ`, `eb_regrid_wrong`).
* C165: `GetFieldMap` stores `function_ref` objects that refer to temporary lambda expressions, which do not live any more when the output calls them; the calls are undefined behaviour in C++ and only work because the lambdas have no members.
* C165: if no numbered name is free, `CreateHdf5Database` truncates the file of the run before (`control_names_exhausted`), while the grid outputs append to it.
* C166: the flux registers get fluxes without areas and the correction divides by the cell length only, while the update divides by the mean area of the cell: with a varying cross section the correction of the coarse cell does not match the fine fluxes (`axial_amr_not_conservative`). The averaging and the interpolation are not weighted with the areas either (`axial_coarsen_not_conservative`).
* C167: for equations of rank two or three `GetFluxMethod` has an empty `else` branch and returns nothing; it is only instantiated for rank one.
* C168: the interface pressures are held by a shared pointer, so all copies of an axial flux method (and of the integrator context that holds it) write to the same arrays; the model has one copy.
* C169: SAMRAI IntegratorContext.cpp:234-254: CopyDataToScratch and CopyScratchToData take GetDataIds() for both spans, so they copy the hierarchy data onto itself; the advanced scratch data is never stored (samrai_data_never_changes).
* C170: SAMRAI IntegratorContext.cpp:165-173: the counter k of the loop is never incremented; all scratch variables are filled from the first hierarchy variable.
* C171: SAMRAI IntegratorContext.cpp: ResetCoarseFineFluxes and AccumulateCoarseFineFluxes are empty and ApplyFluxCorrection coarsens fluxes after the coarse update; there is no flux correction.
* C172: SAMRAI IntegratorContext.cpp:310-319: PreAdvanceLevel(0) calls RegridAllFinerLevels(-1), which reads time_points_[-1]; a new context starts at time zero whatever the time of the hierarchy.
* C173: SAMRAI GriddingAlgorithm.cpp:140-144 sets ratio two on every level, whereas IntegratorContext::GetRatioToCoarserLevel returns the option.
* C174: SAMRAI GriddingAlgorithm's defaulted move constructor and its assignment leave the callbacks of the tag strategy pointing to another object; a copied IntegratorContext shares the gridding algorithm although the documentation says deep copy; boundary wrappers keep the old gridding algorithm.
* C176: SAMRAI HyperbolicTimeIntegrator.cpp:46-57 embeds the range of all conservative components for each variable, whatever its depth; with SAMRAI_MAXIMUM_DIMENSION above the dimension the component range is dropped as the zero-length dimensions are filtered and the loop is empty.
* C177: SAMRAI FluxMethodAdapter.hpp:126-132 shrinks the cell box by the stencil width on both sides and uses it as the box of faces: the last face is missing.
* SAMRAI, not modelled: ConstantBox::TagCellsForRefinement has its arguments in another order than the type-erased tagging method expects; the context lacks PreSplitStep, which DimensionalSplitLevelIntegrator calls; examples/SAMRAI include headers that no longer exist.
* C180: PressureValveBoundary.cpp:229-241,261-277 replaces the gas at constant pressure and velocity after the mass flow boundary chose the velocity for the required flux: the mass flow through the open valve is the required one times the ratio of the densities (valve_changes_massflow).
* C180: the branch for a closed valve in FillBoundary is never taken, ChangeState_ always leaves the state open for air or fuel (valve_transitions, C40).
* C181: MassflowBoundary.cpp:133-170 applies coarse_inner_box to the level it is called for without refining it (massflow_box_not_refined); on a level without cells there the ghost cells are not filled (massflow_unfilled), which makes the assertions of the pressure valve fail (pressureValve_unfilled).
* C182: MyStabilisation.hpp:298-307 always adds a padded chunk, also when the row length is a multiple of the vector width: a patch whose faces are all closed reports the largest double and not infinity (cut_step_all_closed); waves of the reflected boundary states do not limit the step (todo in lines 236-237).
* **C184 / recomputing states in the solid** (include/fub/AMReX/cutcell/Reconstruction.hpp:144, 155, include/fub/CompleteFromCons.hpp:103-105): the vector version stores all lanes, also those of covered cells. For equations without a `CompleteFromCons` of their own `mask.select(src, dest)` keeps the register, not the cell, so a covered cell gets the state another cell had in the previous chunk (`cut_complete_copies`). For the perfect gas covered cells become zero, and so does a cell with gas and non-positive density (`gas_covered_zero`), where the scalar version stops with an assertion.
* **C185 / cross coefficients at walls** (src/AMReX/MLMG/MLNodeHelmDualCstVel.cpp:591-610, src/AMReX/MLMG/MLNodeHelmDualCstVel_K.cpp:124-136): filling the ghost cells of the cross coefficients touches only their first component and mirrors it without changing the sign; the second one keeps the ghost value zero. With walls the operator with Coriolis terms is therefore not conservative (`wall_cross_not_conservative`). *Read*: with `m_use_harmonic_average` (off by default) the ghost cells of the cross coefficients on the finest multigrid level are not filled at all (lines 493-507); the velocity given to the right-hand side in src/AMReX/solver/BK19LevelIntegrator.cpp:319-321 has ghost cells that are filled only periodically, so with walls uninitialised values are read.
* **C186 / regrid_frequency** (include/fub/solver/SubcycleFineFirstSolver.hpp:181-190): the option decides how often the ghost cells are filled after a coarse step, not how often is regridded. With a value other than 1 the next step reads the ghost cells the last step left behind (`regrid_frequency_stale_ghosts`), and 0 is a division by zero.
* **C186 / NoSubcycleSolver** (include/fub/solver/NoSubcycleSolver.hpp:74-105): the ghost cells of a refined level are filled before the coarser level is advanced and not again before the next step, so a refined level always sees coarse data one step old (`no_subcycling_stale_ghosts`).
* **C186 / reference states in ghost cells** (src/AMReX/cutcell/IntegratorContext.cpp:806, include/fub/solver/DimensionalSplitLevelIntegrator.hpp:181-193): the wall reference states are computed before the ghost cells are filled, so on the finest level in all subcycles but the first they belong to old ghost values (`ghost_refs_stale`). *Read*: `FluxMethod::operator=(const FluxMethod&)` and `MyFluxMethod::operator=(const MyFluxMethod&)` have no return statement (include/fub/AMReX/cutcell/FluxMethod.hpp:63-65, include/fub/AMReX/cutcell/MyFluxMethod.hpp:54-57).
* **C187 / mass flow to the turbine** (include/fub/equations/perfect_gas_mix/PlenaControlFeedback.hpp:58-63): `right_face_boundary` takes the small end of the faces of the last column, so the flux is measured at the inner faces of the last column, not at the boundary (`turbine_flux_wrong`, difference in `turbine_flux_offset`); if this column begins a patch, each flux is counted twice (`turbine_flux_doubled`).
* **C187 / temperature at the turbine** (include/fub/equations/perfect_gas_mix/PlenaControlFeedback.hpp:73-75,170,181): `ControlFeedback<2>` divides by the specific gas constant, `ControlFeedback<1>` and the control do not (commented out), so the turbine temperatures agree only for a gas constant of one (`turbine_state`).
* **C188 / averages of the turbine boundary on refined levels** (include/fub/AMReX/cutcell/boundary_condition/TurbineMassflowBoundary.hpp:182-201,219,246-256): `coarse_average_mirror_box` is used with the indices of every level and divided by its full number of cells, so on a level which covers only a part of it the demanded mass flow is too small by that fraction, and zero if the level does not meet the box (`turbine_level_wrong`).
* **C188 / boundary section of the turbine boundary** (include/fub/AMReX/cutcell/boundary_condition/TurbineMassflowBoundary.hpp:225-235,273-275): the modes `average_inner_state` and `average_outer_state` ignore `boundary_section` and overwrite the whole side of the domain (`turbine_section_ignored`, `turbine_section_wrong`).
* **C189 / coarser multigrid levels of the pressure solver** (src/AMReX/MLMG/MLNodeHelmDualCstVel.cpp:94-106,462-481,851-860; the diagonal also in MLNodeHelmDualLinVel.cpp): `m_sigmacross` and `m_alpha` are allocated on multigrid level 0 only, but `Fapply`, `Fsmooth` and `normalize` read them on every level: with more than one multigrid level and no harmonic averages the solver dereferences a null pointer (`helm_coarse_null`). All examples call `setMaxCoarseningLevel(0)`.
* **C189 / harmonic averages in the pressure solver** (src/AMReX/MLMG/MLNodeHelmDualCstVel.cpp:493-507,840-850): the coarser levels then solve an equation without cross coefficients and without diagonal (`helm_coarse_ignores`), and the ghost cells of the cross coefficients of the finest level are not filled, so the operator of the finest level is wrong at the border of every grid (`helm_cross_ghosts`, `helm_harmonic_operator_wrong`).
* **C189 / cross coefficients and diagonal under finer grids** (src/AMReX/MLMG/MLNodeHelmDualCstVel.cpp:524-531): only `m_sigma` is averaged down to coarser refinement levels; the other two stay what was given there (`helm_history`).
* **C190 / inflow at the right and upper side with a fine level** (src/AMReX/MLMG/MLNodeHelmDualCstVel.cpp:246-261): the box of fine cells is compared with the domain of the coarse level. Fine grids at the upper end of the fine domain ignore the inflow, and a fine grid (or tile) that happens to end at the coarse domain's last index, in the middle of the domain, takes the velocity of the cells beyond it a second time (`inflow_high_wrong`).
* **C191 / residual between the levels** (src/AMReX/MLMG/MLNodeHelmDualCstVel_2D_K.cpp:915-977, MLNodeHelmDualCstVel.cpp:1461-1529): at the nodes between two levels the kernels read `sigma` only. The diagonal (and the cross coefficients) of the fine level enter through its inner nodes, but not through its border, and those of the coarse level do not enter at all: with a diagonal 1 on both levels the operator applied to the constant 1 is 1/4 on a straight border (`reflux_diagonal_wrong`). Together with the weights of the coarse part (C145) the residual of an exact solution does not vanish there (`reflux_wrong`).
* **C192 / joints of tubes and plena** (src/AMReX/multi_block/MultiBlockIntegratorContext.cpp:563-602, MultiBlockIntegratorContext2.cpp:516-551): (a) if the patches of the plenum on a level do not reach the joint (or the joint is completely covered), the total area is zero, the averages keep the value zero and all of them are written to the tube: the flux of momentum is zero too, i.e. the tube ends at a vacuum, and a gas at rest begins to move (`joint_unreached`, `joint_rest_wrong`). (b) The loop over the connections does not ask `LevelExists` as the loops before it do: a level that only one of the two blocks has is read past the end of the arrays (`joint_missing_level`). (c) A connection in another direction than X writes the fluxes of the tube in the split step of its direction, in which tubes are not updated, and they are overwritten in the next step in X: such a tube never sees the fluxes of the plenum (`sideways_uncoupled`). (d) At the upper side the averaged faces lie one cell inside of the plenum (`joint_upper_wrong`, C98).
* **C193 / valve that is open for fuel** (src/AMReX/multi_block/MultiBlockBoundary.cpp:542-563): filling the ghost cells of a tube replaces the composition of the cells with the indices 3 and 4 *inside* of the patch that touches the joint, on every level and at every call. The fuel therefore depends on the number of calls, on the level and on the division into patches (`fuel_changes_inside`, `fuel_depends_on_patches`); if the patch at the joint does not contain these indices no fuel enters at all.
* **C193 / unset ghost cells of the plenum** (src/AMReX/multi_block/MultiBlockBoundary.cpp:497,606-618): where the mirror cell of the tube has no positive density nothing is stored, but the array is copied to the plenum nevertheless (the tube asks for a positive density first, line 536); the array is not initialised (`plenum_unset`).
* **C194 / Jacobi in thin cells** (src/AMReX/MLMG/MLNodeHelmDualCstVel_2D_K.cpp:442-464): the damping `2/3` is too weak if one cell width is more than `√3` times the other. The mode that alternates across the thin direction is multiplied by `1 - 8 dx⁻² / (3 (dx⁻² + dy⁻²)) < -1` in each sweep (`jacobi_mode`, `jacobi_diverges`). The smoother is used after `setGaussSeidel(false)` and on GPUs.
* **C194 / Gauss-Seidel with rotation** (src/AMReX/MLMG/MLNodeHelmDualCstVel_2D_K.cpp:502-546): with cross coefficients the operator is not symmetric and the smoother need not converge: if the Coriolis number is three and the weight jumps by a factor of nine, each sweep over a patch of two nodes multiplies the error by minus four (`gs_rotation_diverges`).
* **C195 / several plena** (src/AMReX/cutcell/output/LogProbes.cpp:293-321): all plena append to the same file, so output `t` is not row `t` (`plena_share_file`), and the coordinates are stored by direction for all plena together but read as one block per plenum: two plena with probes at `(1,2,3)` and `(4,5,6)` are probed at `(1,4,2)` and `(5,3,6)` (`plenum_probes_scrambled`).
* **C195 / division by zero in the probe output** (src/AMReX/cutcell/output/LogProbes.cpp:294-297, src/AMReX/cutcell/output/PerfectGasProbesOutput.cpp:221-223): a grid of tubes only, or a cut-cell domain whose options list no probes (the default), divides by zero at the first output (`no_plenum_undefined`, `gas_no_probes_undefined`).
* **C195 / tubes that are not counted** (src/AMReX/cutcell/output/LogProbes.cpp:262-272): the loop runs over the tubes of the grid but the array has room for `n_tubes` of the options (default one): the coordinates of the second tube are read behind the array (`tube_probe_outside`).
* **C196 / the third reference gradient in two dimensions** (include/fub/AMReX/cutcell/MyFluxMethod.hpp:148 and 246, include/fub/AMReX/cutcell/IntegratorContext.hpp:316): `reference_gradients` has `AMREX_SPACEDIM` elements but the method always fetches the one of direction Z: a read beyond the array in every time step of a plane flow, as in examples/AMReX/EB/2D/SlopedChannel_new.cpp (`gradient_plane_undefined`).
* **C196 / coupled blocks** (src/AMReX/multi_block/MultiBlockIntegratorContext.cpp:213-215, include/fub/AMReX/multi_block/MultiBlockIntegratorContext2.hpp:144): `PreSplitStep` is not passed on to the blocks, so gradients and reference states are never computed and the first flux reads MultiFabs that were never defined (`gradient_blocks_undefined`).
* **C196 / type-erased Strang splitting in three dimensions**: ten split steps instead of six; reference states are renewed after every third, in the middle of the sweeps (`gradient_erased_groups`).
* TChemReactor::SetPressure leaves the density of the old pressure (`tc_pressure_stale`), SetMoleFractions of a text leaves the density of the old fractions (`tc_text_stale`), and SetPressureIsentropic, which sets the temperature before the pressure, leaves the density of the pressure that was evaluated last (`tc_isentropic_stale`). The slope it integrates over the pressure does not depend on the pressure it is given (`tc_isentropic_slope`) and uses heat capacities of an old temperature.
* TChemReactor::SetInternalEnergy overwrites the energies of the species without changing the cached temperature. UpdateThermoState at the cached temperature then does nothing and GetInternalEnergy reports the energy at another temperature (`tc_energy_stale`). In the Matlab function Advance_ the second of two equal neighbouring cells gets the temperature after the reaction but the energy before it (`mex_equal_cells_differ`).
* TChemReactor::thermo_temperature_ is not initialised (`tc_thermo_uninitialised`).
* The Matlab function GetEnthalpies_ does not call UpdateThermoState and returns the enthalpies of the last update for each temperature (`mex_enthalpies_ignore`, `mex_enthalpies_wrong`).
* The Matlab function SetMechanism_ makes the new reactor while the old one exists; the library is initialised already and each further call ends with an exception (`mex_mechanism_first`).
* C200: `MultiBlockIntegratorContext::PreAdvanceHierarchy` and `PostAdvanceHierarchy` (src/AMReX/multi_block/MultiBlockIntegratorContext.cpp:455-465) visit only the plena. The constructor of a tube context no longer allocates its level data, so `PreAdvanceLevel` of a tube reads `data_[level]` out of range. The second version visits both.
* C200: `MultiBlockIntegratorContext` has no copy constructor: the copies of the blocks own copies of their grids, but `gridding_` stays the shared one of the original. After `solver = *backup` the output and the condition on `max_cycles` read grids that no step advances any more.
* C201: `cutcell::WriteMatlabData` (src/AMReX/cutcell/PatchHierarchy.cpp:826-849) loops over `i` and `j` only and takes `domain.smallEnd(2)` for the third index: in three dimensions only the lowest plane of the finest grid is filled from coarser levels; elsewhere cells without a fine patch are written as zero.
* C202: the names of the columns in `WriteMatlabData` (src/AMReX/PatchHierarchy.cpp:613-615, 650-654) are padded to 24 characters, `HeatCapacityAtConstantPressure` has 30, and no blank separates it from the first species: the header has one word less than the rows, and the one-dimensional header does not pad the names of the species at all.
* C203: /repo/src/AMReX/multi_block/MultiBlockBoundary2.cpp:176-181 calls Shift(neighbor, ...) without using the result, so the state of the cell in front of a slanted wall is never mixed into the average for the tube; the mixture of lines 184-186 is the state of the cut cell itself.
* C204: /repo/include/fub/flux_method/MusclHancockMethod.hpp:487-571 with HLL and the perfect gas: masked CompleteFromCons (/repo/src/equations/PerfectGas.cpp:126-144) sets the density of closed lanes to zero and the masked signal speeds (/repo/src/equations/perfect_gas/EinfeldtSignalVelocities.hpp:132-133) divide by it, so the flux of every closed face in a vector with an open face is NaN instead of zero.
* C107 (read, not modelled): /repo/include/fub/cutcell_method/HGridReconstruction.hpp:367 calls an overload of IntegrateCellState with three gradients and a direction that does not exist, so ReconstructEmbeddedBoundaryStencil of the base class cannot be instantiated.
* C205: `AllRegularIndexSpace::getLevel` and `getGeometry` use the result of std::find without testing for the end: a box that is no level of the index space reads behind the vectors (`regular_space_unknown`).
* C206: /repo/src/ode_solver/CVodeSolver.cpp:130-138 ignores the return codes of CVode: failures are returned as results, and with an observer the loop does not end if the library cannot reach the end (`cvode_flags_ignored`, `cvode_hangs`).
* C206: /repo/src/ode_solver/CVodeSolver.cpp:133-139 with an observer uses CV_ONE_STEP without a stop time, so the result is the solution at the end of the last internal step, behind t0 + dt, and differs from the result without observer (`cvode_observer_overshoots`).
* C206 (read, not modelled): /repo/src/ode_solver/CVodeSolver.cpp:118 calls CVodeInit on every call with the same memory; CVODE allocates its work vectors again each time.
* C207: /repo/include/fub/ode_solver/OdeSolverFactory.hpp:55 offers default options, with which the entry of CVode (/repo/include/fub/ode_solver/CVodeSolver.hpp:69-75) violates its assertion and, without assertions, reads behind the object (`factory_cvode_default`).
* C209: the copy constructor of CompressibleAdvectionIntegratorContext is documented to copy all distributed data deeply, but it copies valid cells and faces only; the ghost cells of the copied advective fluxes are uninitialised (advective_fluxes_copy_not_deep).
* C211: copying a MultiBlockGriddingAlgorithm copies tubes and plena but keeps the pointers to the valves (/repo/src/AMReX/multi_block/MultiBlockBoundary.cpp:318): a valve that changes in the copy changes in the original (`block_gridding_copy_shares_valves`), so a backup made before a step does not restore the valves.
* *Read*: padding lanes of a partially filled array keep old values, and the kinetics assert on all lanes.
* *Read*: the cut-cell `AverageDown` passes the refinement ratio 2 to `EB_average_down`, whatever the ratio is.
* *Read*: `perfect_gas/ExactRiemannSolver.hpp:99-103` the array version of `ComputeSignals` always throws.
* *Read*: `State.hpp:351-353` an assignment operator without return statement. `AMReX/cutcell/boundary_condition/IsentropicPressureBoundary.cpp:236-239` a variable initialised with itself.
* *Read*: `MultiFabUtilities.cpp:76-90` `GetMeanValueInBox` counts ghost cells twice. HLLEM `l23`, `l24` lack the Mach number factor, which matters only for mixtures.
* Assumption about AMReX: `boxDiff`, `Geometry::growPeriodicDomain`, `FluxRegister` and `average_down` are modelled from their documented behaviour.

## Which parts of the code are modelled

Generated from the citations in the model. A file is listed as modelled if at least one definition of the model cites it; the definition comments give the lines and the simplifications.

* `Model/AdvectiveFluxes.lean`: `include/fub/AMReX/CompressibleAdvectionIntegratorContext.hpp`, `include/fub/AMReX/IntegratorContext.hpp`, `src/AMReX/CompressibleAdvectionIntegratorContext.cpp`, `src/AMReX/IntegratorContext.cpp`
* `Model/Amr.lean`: `include/fub/AMReX/IntegratorContext.hpp`, `include/fub/solver/DimensionalSplitLevelIntegrator.hpp`, `include/fub/solver/SubcycleFineFirstSolver.hpp`, `src/AMReX/IntegratorContext.cpp`, `src/AMReX/TimeIntegrator.cpp`, `src/HyperbolicPatchIntegrator.cpp`
* `Model/Average.lean`: `include/fub/AMReX/AverageState.hpp`
* `Model/AxiSymmetric.lean`: `src/AMReX/cutcell/AxiSymmetricSourceTerm.cpp`
* `Model/AxialAmr.lean`: `include/fub/AMReX/AxialFluxMethodAdapter.hpp`, `include/fub/AMReX/AxialTimeIntegrator.hpp`, `include/fub/AMReX/FluxMethodFactory.hpp`, `src/AMReX/IntegratorContext.cpp`
* `Model/AxialSweep.lean`: `include/fub/AMReX/AxialFluxMethodAdapter.hpp`
* `Model/AxialTube.lean`: `include/fub/AMReX/AxialTimeIntegrator.hpp`, `src/AMReX/AxialSourceTerm.cpp`
* `Model/BlockGridding.lean`: `include/fub/AMReX/multi_block/MultiBlockBoundary.hpp`, `include/fub/AMReX/multi_block/MultiBlockGriddingAlgorithm.hpp`, `src/AMReX/multi_block/MultiBlockBoundary.cpp`, `src/AMReX/multi_block/MultiBlockGriddingAlgorithm.cpp`
* `Model/Boundary.lean`: `include/fub/AMReX/boundary_condition/ConstantBoundary.hpp`, `include/fub/AMReX/boundary_condition/ReflectiveBoundary.hpp`, `include/fub/AnyBoundaryCondition.hpp`, `include/fub/boundary_condition/ReflectiveBoundary.hpp`, `src/AMReX/boundary_condition/BoundarySet.cpp`, `src/AMReX/boundary_condition/TransmissiveBoundary.cpp`, `src/boundary_condition/ReflectiveBoundary.cpp`
* `Model/Burgers.lean`: `include/fub/equations/Burgers.hpp`, `include/fub/flux_method/FluxMethod.hpp`, `include/fub/flux_method/GodunovMethod.hpp`, `src/HyperbolicPatchIntegrator.cpp`, `src/equations/Advection.cpp`, `src/equations/Burgers.cpp`
* `Model/Burke.lean`: `include/fub/equations/ideal_gas_mix/mechanism/Burke2012.hpp`, `src/equations/ideal_gas_mix/mechanism/Burke2012.cpp`
* `Model/Checkpoint.lean`: `examples/AMReX/EB/2D/Divider2D.cpp`, `examples/AMReX/EB/2D/SEC_Plenum_Arrhenius.cpp`, `examples/AMReX/EB/3D/MultiTube.cpp`, `include/fub/AMReX/IgniteDetonation.hpp`, `include/fub/AMReX/PatchHierarchy.hpp`, `include/fub/AMReX/boundary_condition/PressureValveBoundary.hpp`, `include/fub/AMReX/multi_block/MultiBlockIgniteDetonation.hpp`, `include/fub/Duration.hpp`, `src/AMReX/GriddingAlgorithm.cpp`, `src/AMReX/IntegratorContext.cpp`, `src/AMReX/PatchHierarchy.cpp`, `src/AMReX/cutcell/PatchHierarchy.cpp`
* `Model/Context.lean`: `include/fub/AMReX/GriddingAlgorithm.hpp`, `include/fub/AMReX/IntegratorContext.hpp`, `include/fub/AMReX/PatchHierarchy.hpp`, `src/AMReX/GriddingAlgorithm.cpp`, `src/AMReX/IntegratorContext.cpp`, `src/AMReX/PatchHierarchy.cpp`, `src/AMReX/multi_block/MultiBlockIntegratorContext2.cpp`
* `Model/Control.lean`: `include/fub/equations/perfect_gas_mix/PlenaControl.hpp`, `include/fub/equations/perfect_gas_mix/PlenaControlFeedback.hpp`, `src/equations/perfect_gas_mix/PlenaControl.cpp`
* `Model/ControlOutput.lean`: `src/equations/perfect_gas_mix/PlenaControlOutput.cpp`
* `Model/Counter.lean`: `include/fub/counter/Counter.hpp`, `include/fub/counter/CounterRegistry.hpp`, `include/fub/counter/CounterResult.hpp`, `include/fub/counter/Timer.hpp`, `src/counter/Counter.cpp`, `src/counter/CounterRegistry.cpp`, `src/counter/Timer.cpp`
* `Model/CutAmr.lean`: `include/fub/AMReX/cutcell/IndexSpace.hpp`, `src/AMReX/cutcell/GriddingAlgorithm.cpp`, `src/AMReX/cutcell/IntegratorContext.cpp`, `src/AMReX/cutcell/PatchHierarchy.cpp`
* `Model/CutBoundary.lean`: `include/fub/AMReX/boundary_condition/IsentropicPressureExpansion.hpp`, `include/fub/AMReX/cutcell/boundary_condition/ConstantBoundary.hpp`, `include/fub/AMReX/cutcell/boundary_condition/IsentropicPressureExpansion.hpp`, `include/fub/AMReX/cutcell/boundary_condition/MachnumberBoundary.hpp`, `include/fub/AMReX/cutcell/boundary_condition/ReflectiveBoundary.hpp`, `include/fub/AMReX/cutcell/boundary_condition/ReflectiveBoundary2.hpp`, `include/fub/AMReX/cutcell/boundary_condition/TurbineMassflowBoundary.hpp`, `src/AMReX/boundary_condition/IsentropicPressureBoundary.cpp`, `src/AMReX/cutcell/boundary_condition/IsentropicPressureBoundary.cpp`, `src/AMReX/cutcell/boundary_condition/PressureOutflowBoundary.cpp`, `src/AMReX/cutcell/boundary_condition/PressureOutflowBoundary2.cpp`
* `Model/CutCell.lean`: `include/fub/cutcell_method/KbnStabilisation.hpp`, `include/fub/ext/Eigen.hpp`, `src/AMReX/cutcell/FillCutCellData.cpp`, `src/AMReX/cutcell/IntegratorContext.cpp`, `src/AMReX/cutcell/TimeIntegrator.cpp`, `src/cutcell_method/KbnStabilisation.cpp`
* `Model/CutComplete.lean`: `include/fub/AMReX/cutcell/Reconstruction.hpp`, `include/fub/CompleteFromCons.hpp`, `src/equations/PerfectGas.cpp`
* `Model/CutRegular.lean`: `include/fub/cutcell_method/KbnStabilisation.hpp`, `include/fub/cutcell_method/MyStabilisation.hpp`, `include/fub/flux_method/MusclHancockMethod2.hpp`
* `Model/CutStable.lean`: `include/fub/AMReX/cutcell/FluxMethod.hpp`, `include/fub/AMReX/cutcell/MyFluxMethod.hpp`, `include/fub/cutcell_method/KbnStabilisation.hpp`, `include/fub/cutcell_method/MyStabilisation.hpp`, `include/fub/flux_method/HllMethod.hpp`
* `Model/CutSweep.lean`: `include/fub/AMReX/ForEachFab.hpp`, `include/fub/AMReX/cutcell/MyFluxMethod.hpp`, `include/fub/ForEach.hpp`, `include/fub/cutcell_method/MyStabilisation.hpp`, `src/AMReX/cutcell/FillCutCellData.cpp`, `src/cutcell_method/MyStabilisation.cpp`
* `Model/CvodeDriver.lean`: `include/fub/ode_solver/CVodeSolver.hpp`, `src/ode_solver/CVodeSolver.cpp`
* `Model/DebugOutput.lean`: `include/fub/AMReX/output/DebugOutput.hpp`, `src/AMReX/output/DebugOutput.cpp`
* `Model/Diffusion.lean`: `include/fub/AMReX/DiffusionSourceTerm.hpp`, `src/HyperbolicPatchIntegrator.cpp`
* `Model/Feedback.lean`: `include/fub/equations/PerfectGasMix.hpp`, `include/fub/equations/perfect_gas_mix/PlenaControlFeedback.hpp`
* `Model/Flux.lean`: `include/fub/CompleteFromCons.hpp`, `include/fub/State.hpp`, `include/fub/flux_method/GodunovMethod.hpp`, `include/fub/flux_method/HllMethod.hpp`, `include/fub/flux_method/MusclHancockMethod.hpp`, `include/fub/flux_method/MusclHancockMethod2.hpp`, `include/fub/flux_method/Reconstruct.hpp`
* `Model/Gas.lean`: `include/fub/HyperbolicPatchIntegrator.hpp`, `include/fub/State.hpp`, `include/fub/equations/PerfectGas.hpp`, `include/fub/flux_method/HllMethod.hpp`, `src/AMReX/IntegratorContext.cpp`, `src/HyperbolicPatchIntegrator.cpp`, `src/equations/PerfectGas.cpp`, `src/equations/perfect_gas/EinfeldtSignalVelocities.hpp`
* `Model/GasExact.lean`: `include/fub/NewtonIteration.hpp`, `include/fub/State.hpp`, `include/fub/equations/perfect_gas/ExactRiemannSolver.hpp`, `src/equations/perfect_gas/ExactRiemannSolver.hpp`
* `Model/GasMix.lean`: `include/fub/AMReX/boundary_condition/IsentropicPressureExpansion.hpp`, `include/fub/AMReX/cutcell/boundary_condition/IsentropicPressureExpansion.hpp`, `include/fub/equations/EulerEquation.hpp`, `include/fub/equations/PerfectGasMix.hpp`, `src/AMReX/cutcell/boundary_condition/IsentropicPressureBoundary.cpp`, `src/equations/PerfectGasMix.cpp`
* `Model/Geometry.lean`: `include/fub/geometry/Ball.hpp`, `include/fub/geometry/Invert.hpp`, `include/fub/geometry/RotateAroundPoint.hpp`, `include/fub/geometry/RotateAxis.hpp`, `src/geometry/Cone.cpp`, `src/geometry/ExpandTube.cpp`, `src/geometry/Halfspace.cpp`, `src/geometry/Polygon.cpp`, `src/geometry/Union.cpp`
* `Model/GhostTiming.lean`: `include/fub/AMReX/cutcell/FluxMethod.hpp`, `include/fub/AMReX/cutcell/IntegratorContext.hpp`, `include/fub/cutcell_method/KbnStabilisation.hpp`, `include/fub/solver/DimensionalSplitLevelIntegrator.hpp`, `include/fub/solver/NoSubcycleSolver.hpp`, `include/fub/solver/SubcycleFineFirstSolver.hpp`, `src/AMReX/IntegratorContext.cpp`, `src/AMReX/cutcell/IntegratorContext.cpp`
* `Model/GridOutput.lean`: `src/AMReX/PatchHierarchy.cpp`, `src/AMReX/cutcell/PatchHierarchy.cpp`, `src/AMReX/cutcell/output/WriteHdf5Impl.cpp`, `src/AMReX/output/WriteHdf5Impl.cpp`
* `Model/HGrid.lean`: `include/fub/CutCellData.hpp`, `include/fub/PatchDataView.hpp`, `include/fub/cutcell_method/HGridReconstruction.hpp`, `include/fub/cutcell_method/HGridReconstruction2.hpp`, `include/fub/cutcell_method/MyStabilisation.hpp`, `src/CutCellData.cpp`, `src/cutcell_method/MyStabilisation.cpp`
* `Model/HGridPolygon.lean`: `include/fub/CutCellData.hpp`, `src/AMReX/cutcell/PatchHierarchy.cpp`, `src/CutCellData.cpp`
* `Model/Hdf5File.lean`: `include/fub/output/Hdf5Handle.hpp`, `src/AMReX/PatchHierarchy.cpp`, `src/AMReX/cutcell/output/LogProbes.cpp`, `src/AMReX/cutcell/output/WriteHdf5.cpp`, `src/AMReX/multi_block/MultiWriteHdf5.cpp`, `src/AMReX/output/WriteHdf5.cpp`, `src/equations/perfect_gas_mix/PlenaControlOutput.cpp`
* `Model/Hllem.lean`: `include/fub/equations/EulerEquation.hpp`, `include/fub/equations/perfect_gas/HllemMethod.hpp`, `src/equations/perfect_gas/HllemMethod.hpp`
* `Model/IdealGasMix.lean`: `include/fub/equations/IdealGasMix.hpp`, `include/fub/equations/ideal_gas_mix/FlameMasterReactor.hpp`, `src/equations/IdealGasMix.cpp`, `src/equations/ideal_gas_mix/FlameMasterReactor.cpp`, `src/equations/ideal_gas_mix/KineticSourceTerm.cpp`
* `Model/IdealMuscl.lean`: `include/fub/equations/IdealGasMix.hpp`, `include/fub/equations/ideal_gas_mix/FlameMasterReactor.hpp`, `include/fub/equations/ideal_gas_mix/MusclHancockPrimMethod.hpp`, `include/fub/flux_method/HllMethod.hpp`, `src/equations/IdealGasMix.cpp`, `src/equations/ideal_gas_mix/EinfeldtSignalVelocities.hpp`, `src/equations/ideal_gas_mix/FlameMasterReactor.cpp`, `src/equations/ideal_gas_mix/MusclHancockCharacteristicMethod.hpp`, `src/equations/ideal_gas_mix/MusclHancockPrimMethod.hpp`
* `Model/Ignition.lean`: `include/fub/AMReX/IgniteDetonation.hpp`, `src/AMReX/IgniteDetonation.cpp`
* `Model/IndexBox.lean`: `include/fub/ForEach.hpp`, `include/fub/PatchDataView.hpp`
* `Model/Interpolate1d.lean`: `src/AMReX/cutcell/initial_data/InterpolateFrom1d.cpp`
* `Model/IsentropicBoundary.lean`: `src/AMReX/boundary_condition/IsentropicPressureBoundary.cpp`, `src/AMReX/cutcell/boundary_condition/IsentropicPressureBoundary.cpp`, `src/equations/ideal_gas_mix/FlameMasterReactor.cpp`
* `Model/JointFlux.lean`: `include/fub/AMReX/multi_block/MultiBlockBoundary.hpp`, `src/AMReX/multi_block/MultiBlockIntegratorContext.cpp`, `src/AMReX/multi_block/MultiBlockIntegratorContext2.cpp`
* `Model/Kinetics.lean`: `include/fub/equations/perfect_gas_mix/ArrheniusKinetics.hpp`, `include/fub/equations/perfect_gas_mix/IgnitionDelayKinetics.hpp`, `include/fub/equations/perfect_gas_mix/PlenaControl.hpp`, `src/equations/perfect_gas_mix/ArrheniusKinetics.cpp`, `src/equations/perfect_gas_mix/IgnitionDelayKinetics.cpp`
* `Model/Layout.lean`: `include/fub/PatchDataView.hpp`, `include/fub/StateRow.hpp`, `include/fub/core/mdspan.hpp`, `include/fub/core/span.hpp`
* `Model/LevelIntegrator.lean`: `include/fub/ext/Mpi.hpp`, `include/fub/solver/DimensionalSplitLevelIntegrator.hpp`, `include/fub/solver/SplitSystemSourceLevelIntegrator.hpp`
* `Model/Limiter.lean`: `include/fub/flux_method/Gradient.hpp`, `include/fub/flux_method/MusclHancockMethod.hpp`
* `Model/Logging.lean`: `src/AMReX/cutcell/initial_data/InterpolateFrom1d.cpp`, `src/ext/Log.cpp`
* `Model/LowMach.lean`: `include/fub/AMReX/solver/BK19LevelIntegrator.hpp`, `include/fub/equations/CompressibleAdvection.hpp`, `src/AMReX/solver/BK19LevelIntegrator.cpp`, `src/HyperbolicPatchIntegrator.cpp`, `src/equations/CompressibleAdvection.cpp`
* `Model/Massflow.lean`: `include/fub/AMReX/cutcell/boundary_condition/TurbineMassflowBoundary.hpp`, `include/fub/equations/RequireMassflow.hpp`, `src/AMReX/boundary_condition/MassflowBoundary.cpp`
* `Model/MatlabGrid.lean`: `src/AMReX/cutcell/PatchHierarchy.cpp`
* `Model/MatlabText.lean`: `src/AMReX/PatchHierarchy.cpp`
* `Model/MdLimiter.lean`: `include/fub/CutCellData.hpp`, `include/fub/cutcell_method/MdGradients.hpp`, `src/CutCellData.cpp`, `src/cutcell_method/AnyMdLimiter.cpp`
* `Model/MethodFactory.lean`: `include/fub/AMReX/FluxMethodFactory.hpp`, `include/fub/AMReX/cutcell/FluxMethodFactory.hpp`, `include/fub/flux_method/Gradient.hpp`, `include/fub/flux_method/MusclHancockMethod2.hpp`
* `Model/MultiBlock.lean`: `include/fub/AMReX/multi_block/MultiBlockBoundary.hpp`, `include/fub/AMReX/multi_block/MultiBlockBoundary2.hpp`, `include/fub/AMReX/multi_block/MultiBlockGriddingAlgorithm2.hpp`, `include/fub/AMReX/multi_block/MultiBlockIntegratorContext2.hpp`, `src/AMReX/multi_block/MultiBlockBoundary.cpp`, `src/AMReX/multi_block/MultiBlockBoundary2.cpp`, `src/AMReX/multi_block/MultiBlockIntegratorContext2.cpp`
* `Model/MultiBlockFirst.lean`: `include/fub/AMReX/multi_block/MultiBlockIntegratorContext.hpp`, `include/fub/AMReX/multi_block/MultiBlockIntegratorContext2.hpp`, `include/fub/RunSimulation.hpp`, `src/AMReX/IntegratorContext.cpp`, `src/AMReX/cutcell/IntegratorContext.cpp`, `src/AMReX/multi_block/MultiBlockIntegratorContext.cpp`, `src/AMReX/multi_block/MultiBlockIntegratorContext2.cpp`
* `Model/MultiBlockRun.lean`: `include/fub/AMReX/multi_block/MultiBlockIntegratorContext2.hpp`, `include/fub/AMReX/multi_block/MultiBlockSourceTerm.hpp`, `include/fub/solver/DimensionalSplitLevelIntegrator.hpp`, `src/AMReX/multi_block/MultiBlockIgniteDetonation.cpp`, `src/AMReX/multi_block/MultiBlockIntegratorContext2.cpp`, `src/AMReX/multi_block/MultiBlockKineticSourceTerm.cpp`
* `Model/MusclGas.lean`: `include/fub/equations/perfect_gas/MusclHancockCharactersticMethod.hpp`, `src/equations/perfect_gas/MusclHancockCharacteristicMethod.hpp`, `src/equations/perfect_gas/MusclHancockPrimMethod.hpp`, `src/equations/perfect_gas/ThirdOrderRungeKuttaMethod.hpp`
* `Model/MusclMasked.lean`: `include/fub/CompleteFromCons.hpp`, `include/fub/Equation.hpp`, `include/fub/flux_method/HllMethod.hpp`, `include/fub/flux_method/MusclHancockMethod.hpp`, `src/equations/PerfectGas.cpp`
* `Model/Newton.lean`: `src/equations/ideal_gas_mix/FlameMasterReactor.cpp`
* `Model/NodalHelm.lean`: `src/AMReX/MLMG/MLNodeHelmDualCstVel.cpp`, `src/AMReX/MLMG/MLNodeHelmDualCstVel_2D_K.cpp`
* `Model/NodalHelmLin.lean`: `src/AMReX/MLMG/MLNodeHelmDualCstVel_2D_K.cpp`, `src/AMReX/MLMG/MLNodeHelmDualLinVel.cpp`, `src/AMReX/MLMG/MLNodeHelmDualLinVel_2D_K.cpp`
* `Model/NodalLevels.lean`: `include/fub/AMReX/MLMG/MLNodeHelmDualCstVel.hpp`, `src/AMReX/MLMG/MLNodeHelmDualCstVel.cpp`
* `Model/NodalRelax.lean`: `src/AMReX/MLMG/MLNodeHelmDualCstVel.cpp`
* `Model/NodalRelaxLin.lean`: `src/AMReX/MLMG/MLNodeHelmDualLinVel.cpp`
* `Model/NodalWall.lean`: `src/AMReX/MLMG/MLNodeHelmDualCstVel.cpp`, `src/AMReX/MLMG/MLNodeHelmDualCstVel_2D_K.cpp`, `src/AMReX/MLMG/MLNodeHelmDualCstVel_K.cpp`, `src/AMReX/MLMG/MLNodeHelmDualLinVel_2D_K.cpp`, `src/AMReX/MLMG/MLNodeHelmDualLinVel_K.cpp`
* `Model/OdeDriver.lean`: `include/fub/equations/ideal_gas_mix/FlameMasterReactor.hpp`, `include/fub/ode_solver/RadauSolver.hpp`, `src/equations/ideal_gas_mix/FlameMasterReactor.cpp`, `src/ode_solver/RadauSolver.cpp`
* `Model/OdeFactory.lean`: `include/fub/ode_solver/CVodeSolver.hpp`, `include/fub/ode_solver/OdeSolverFactory.hpp`, `include/fub/ode_solver/RadauSolver.hpp`, `src/ode_solver/OdeSolverFactory.cpp`
* `Model/OmpLocal.lean`: `include/fub/AMReX/ForEachFab.hpp`, `include/fub/ext/omp.hpp`, `src/AMReX/MultiFabUtilities.cpp`
* `Model/Options.lean`: `include/fub/ext/ProgramOptions.hpp`, `src/ext/ProgramOptions.cpp`
* `Model/Output.lean`: `include/fub/output/MultipleOutputs.hpp`, `include/fub/output/OutputAtFrequencyOrInterval.hpp`, `include/fub/output/OutputFactory.hpp`
* `Model/PatchIntegrator.lean`: `include/fub/AMReX/FluxMethodAdapter.hpp`, `include/fub/State.hpp`, `include/fub/flux_method/FluxMethod.hpp`, `src/HyperbolicPatchIntegrator.cpp`
* `Model/PatchSweep.lean`: `include/fub/AMReX/AxialFluxMethodAdapter.hpp`, `include/fub/AMReX/FluxMethodAdapter.hpp`, `include/fub/AMReX/ForEachFab.hpp`, `include/fub/AMReX/Reconstruction.hpp`, `include/fub/PatchDataView.hpp`, `include/fub/flux_method/FluxMethod.hpp`, `include/fub/solver/DimensionalSplitLevelIntegrator.hpp`, `src/AMReX/IntegratorContext.cpp`, `src/AMReX/TimeIntegrator.cpp`, `src/AMReX/ViewFArrayBox.cpp`
* `Model/PatchTransmissive.lean`: `include/fub/boundary_condition/TransmissiveBoundary.hpp`
* `Model/Pool.lean`: `include/fub/PoolAllocator.hpp`, `src/PoolAllocator.cpp`
* `Model/ProbeRun.lean`: `src/AMReX/cutcell/output/LogProbes.cpp`, `src/AMReX/cutcell/output/PerfectGasProbesOutput.cpp`
* `Model/Reactor.lean`: `include/fub/equations/ideal_gas_mix/FlameMasterReactor.hpp`, `src/equations/ideal_gas_mix/FlameMasterReactor.cpp`
* `Model/Reconstruct.lean`: `include/fub/equations/PerfectGasMix.hpp`, `include/fub/flux_method/Gradient.hpp`, `include/fub/flux_method/Reconstruct.hpp`
* `Model/RegridData.lean`: `include/fub/AMReX/PatchHierarchy.hpp`, `src/AMReX/GriddingAlgorithm.cpp`, `src/AMReX/cutcell/GriddingAlgorithm.cpp`
* `Model/RegularSpace.lean`: `include/fub/AMReX/cutcell/AllRegularIndexSpace.hpp`, `src/AMReX/PatchHierarchy.cpp`, `src/AMReX/cutcell/AllRegularIndexSpace.cpp`
* `Model/RunLoop.lean`: `include/fub/RunSimulation.hpp`, `include/fub/output/BasicOutput.hpp`
* `Model/Samrai.lean`: `include/fub/SAMRAI/FluxMethodAdapter.hpp`, `include/fub/SAMRAI/GriddingAlgorithm.hpp`, `include/fub/SAMRAI/IntegratorContext.hpp`, `include/fub/SAMRAI/PatchHierarchy.hpp`, `include/fub/SAMRAI/RegisterVariables.hpp`, `include/fub/SAMRAI/ViewPatch.hpp`, `include/fub/solver/SubcycleFineFirstSolver.hpp`, `src/SAMRAI/GriddingAlgorithm.cpp`, `src/SAMRAI/HyperbolicTimeIntegrator.cpp`, `src/SAMRAI/IntegratorContext.cpp`, `src/SAMRAI/PatchHierarchy.cpp`, `src/SAMRAI/tagging_method/ConstantBox.cpp`
* `Model/SamraiView.lean`: `include/fub/SAMRAI/FluxMethodAdapter.hpp`, `include/fub/SAMRAI/PatchHierarchy.hpp`, `include/fub/SAMRAI/RegisterVariables.hpp`, `include/fub/SAMRAI/ViewPatch.hpp`, `src/SAMRAI/CartesianPatchHierarchy.cpp`, `src/SAMRAI/HyperbolicTimeIntegrator.cpp`, `src/SAMRAI/IntegratorContext.cpp`, `src/SAMRAI/RegisterVariables.cpp`
* `Model/ScratchLevels.lean`: `include/fub/AMReX/PatchHierarchy.hpp`, `src/AMReX/GriddingAlgorithm.cpp`
* `Model/ShallowWater.lean`: `include/fub/NewtonIteration.hpp`, `include/fub/equations/ShallowWater.hpp`, `include/fub/flux_method/HllMethod.hpp`, `src/HyperbolicPatchIntegrator.cpp`, `src/equations/ShallowWater.cpp`
* `Model/ShockData.lean`: `include/fub/AMReX/cutcell/initial_data/RiemannProblem.hpp`, `include/fub/initial_data/ShockMachnumber.hpp`, `src/AMReX/cutcell/boundary_condition/MassflowBoundary.cpp`, `src/equations/PerfectGas.cpp`
* `Model/SlantedConnection.lean`: `include/fub/AMReX/multi_block/MultiBlockBoundary2.hpp`, `src/AMReX/multi_block/MultiBlockBoundary2.cpp`, `src/equations/PerfectGasMix.cpp`
* `Model/SplitGradient.lean`: `include/fub/AMReX/cutcell/IntegratorContext.hpp`, `include/fub/AMReX/cutcell/MyFluxMethod.hpp`, `include/fub/AMReX/multi_block/MultiBlockIntegratorContext2.hpp`, `include/fub/HyperbolicMethod.hpp`, `include/fub/solver/DimensionalSplitLevelIntegrator.hpp`, `src/AMReX/cutcell/IntegratorContext.cpp`, `src/AMReX/multi_block/MultiBlockIntegratorContext.cpp`
* `Model/Splitting.lean`: `include/fub/split_method/SplittingMethod.hpp`, `src/split_method/GodunovSplitting.cpp`, `src/split_method/StrangSplitting.cpp`, `src/split_method/StrangSplittingLumped.cpp`
* `Model/StateComponents.lean`: `include/fub/StateUtil.hpp`
* `Model/States.lean`: `include/fub/AMReX/ViewFArrayBox.hpp`, `include/fub/CompleteFromCons.hpp`, `include/fub/Equation.hpp`, `include/fub/PatchDataView.hpp`, `include/fub/State.hpp`, `include/fub/StateArray.hpp`, `include/fub/StateRow.hpp`, `include/fub/ext/Eigen.hpp`
* `Model/Subcycle.lean`: `include/fub/TimeStepError.hpp`, `include/fub/solver/NoSubcycleSolver.hpp`, `include/fub/solver/SubcycleFineFirstSolver.hpp`
* `Model/TChem.lean`: `apps/matlab/TChemKinetics_.cpp`, `include/fub/equations/ideal_gas_mix/TChemReactor.hpp`, `src/equations/ideal_gas_mix/TChemReactor.cpp`
* `Model/Tagging.lean`: `include/fub/AMReX/tagging_method/TagAllOf.hpp`, `include/fub/tagging_method/GradientDetector.hpp`, `src/AMReX/tagging_method/ConstantRegion.cpp`, `src/tagging_method/TagBuffer.cpp`, `src/tagging_method/TagCutCells.cpp`
* `Model/TurbineBoundary.lean`: `include/fub/AMReX/cutcell/boundary_condition/MachnumberBoundary.hpp`, `src/AMReX/boundary_condition/TurbinePlenumBoundaryCondition.cpp`, `src/AMReX/cutcell/boundary_condition/PressureOutflowBoundary.cpp`, `src/AMReX/cutcell/boundary_condition/PressureOutflowBoundary2.cpp`
* `Model/TurbineFlow.lean`: `include/fub/AMReX/cutcell/boundary_condition/TurbineMassflowBoundary.hpp`, `src/AMReX/cutcell/boundary_condition/MassflowBoundary.cpp`
* `Model/TwoLevelResid.lean`: `src/AMReX/MLMG/MLNodeHelmDualCstVel.cpp`, `src/AMReX/MLMG/MLNodeHelmDualCstVel_2D_K.cpp`
* `Model/TwoLevelRhs.lean`: `src/AMReX/MLMG/MLNodeHelmDualCstVel.cpp`, `src/AMReX/MLMG/MLNodeHelmDualCstVel_2D_K.cpp`
* `Model/Util.lean`: `include/fub/AMReX/cutcell/IndexSpace.hpp`, `include/fub/NewtonIteration.hpp`, `include/fub/core/algorithm.hpp`, `include/fub/core/assert.hpp`
* `Model/Valve.lean`: `include/fub/AMReX/boundary_condition/GenericPressureValveBoundary.hpp`, `include/fub/AMReX/boundary_condition/PressureValveBoundary.hpp`, `src/AMReX/boundary_condition/PressureValveBoundary.cpp`
* `Model/ValveFill.lean`: `include/fub/AMReX/AverageState.hpp`, `include/fub/AMReX/boundary_condition/MassflowBoundary.hpp`, `include/fub/AMReX/boundary_condition/PressureValveBoundary.hpp`, `src/AMReX/boundary_condition/MassflowBoundary.cpp`, `src/AMReX/boundary_condition/PressureValveBoundary.cpp`
* `Model/ValveJoint.lean`: `src/AMReX/multi_block/MultiBlockBoundary.cpp`, `src/AMReX/multi_block/MultiBlockIntegratorContext.cpp`
* `Model/WallCoupling.lean`: `include/fub/AMReX/cutcell/FluxMethod.hpp`, `include/fub/AMReX/cutcell/IntegratorContext.hpp`, `include/fub/AMReX/multi_block/MultiBlockIntegratorContext2.hpp`, `include/fub/cutcell_method/KbnStabilisation.hpp`, `include/fub/solver/DimensionalSplitLevelIntegrator.hpp`, `src/AMReX/cutcell/IntegratorContext.cpp`, `src/AMReX/multi_block/MultiBlockBoundary2.cpp`, `src/AMReX/multi_block/MultiBlockIntegratorContext2.cpp`

Not modelled (no definition cites these files), by directory:

* `include/fub/`: AMReX.hpp, AMReX_CutCell.hpp, AnyInitialData.hpp, AnyTaggingMethod.hpp, CartesianCoordinates.hpp, Direction.hpp, EinfeldtSignalVelocities.hpp, ExactRiemannSolver.hpp, Execution.hpp, Meta.hpp, SAMRAI.hpp, Solver.hpp
* `include/fub/AMReX/`: AxialSourceTerm.hpp, CartesianGridGeometry.hpp, FillCutCellData.hpp, FindLevel.hpp, ForEachIndex.hpp, Geometry.hpp, MemoryResourceArena.hpp, MultiFabUtilities.hpp, ScopeGuard.hpp, TimeIntegrator.hpp
* `include/fub/AMReX/MLMG/`: MLNodeHelmDualLinVel.hpp, MLNodeHelmholtz.hpp
* `include/fub/AMReX/boundary_condition/`: BoundaryConditionRef.hpp, BoundarySet.hpp, IsentropicPressureBoundary.hpp, TransmissiveBoundary.hpp, TurbinePlenumBoundaryCondition.hpp
* `include/fub/AMReX/cutcell/`: AxiSymmetricSourceTerm.hpp, GriddingAlgorithm.hpp, HGridFluxMethod.hpp, PatchHierarchy.hpp, TimeIntegrator.hpp
* `include/fub/AMReX/cutcell/boundary_condition/`: BoundarySet.hpp, IsentropicPressureBoundary.hpp, MassflowBoundary.hpp, PressureOutflowBoundary.hpp, PressureOutflowBoundary2.hpp, TransmissiveBoundary.hpp
* `include/fub/AMReX/cutcell/initial_data/`: InterpolateFrom1d.hpp, PythonData.hpp
* `include/fub/AMReX/cutcell/output/`: DebugOutput.hpp, LogProbes.hpp, PerfectGasProbesOutput.hpp, WriteHdf5.hpp, WritePlotfiles.hpp
* `include/fub/AMReX/cutcell/tagging_method/`: ConstantRegion.hpp, GradientDetector.hpp, TagAllOf.hpp, TagBuffer.hpp, TagCutCells.hpp
* `include/fub/AMReX/initial_data/`: ConstantData.hpp, PythonData.hpp
* `include/fub/AMReX/multi_block/`: MultiBlockKineticSourceTerm.hpp, MultiBlockLevelIntegrator.hpp, MultiBlockPlotfileOutput.hpp, MultiWriteHdf5.hpp
* `include/fub/AMReX/output/`: WriteHdf5.hpp, WritePlotfiles.hpp
* `include/fub/AMReX/tagging_method/`: ConstantRegion.hpp, GradientDetector.hpp, TagBuffer.hpp
* `include/fub/SAMRAI/`: CartesianPatchHierarchy.hpp, CompleteFromCons.hpp, HyperbolicTimeIntegrator.hpp, ScopeGuard.hpp
* `include/fub/SAMRAI/tagging_method/`: ConstantBox.hpp, GradientDetector.hpp
* `include/fub/boundary_condition/`: NoBoundary.hpp
* `include/fub/core/`: dynamic_extent.hpp, function_ref.hpp, mdarray.hpp, pragma.hpp, tuple.hpp, type_traits.hpp
* `include/fub/cutcell_method/`: AnyMdLimiter.hpp
* `include/fub/equations/`: Advection.hpp
* `include/fub/equations/ideal_gas_mix/`: EinfeldtSignalVelocities.hpp, HlleMethod.hpp, KineticSourceTerm.hpp, MusclHancockCharactersticMethod.hpp
* `include/fub/equations/ideal_gas_mix/mechanism/`: AramcoMech_DMEonly_74spec.hpp, AramcoMech_woC3H4_91spec.hpp, Gri30.hpp, Zhao2008Dme.hpp
* `include/fub/equations/perfect_gas/`: EinfeldtSignalVelocities.hpp, GodunovMethod.hpp, MusclHancockMethod.hpp, MusclHancockPrimMethod.hpp, ThirdOrderRungeKuttaMethod.hpp
* `include/fub/equations/perfect_gas_mix/`: CPO.hpp, EinfeldtSignalVelocities.hpp, HllemMethod.hpp, PlenaControlOutput.hpp
* `include/fub/ext/`: CopyInputFile.hpp, Log.hpp, Timer.hpp, Vc.hpp, Version.hpp, hana.hpp, outcome.hpp, uuid.hpp
* `include/fub/geometry/`: Ambient.hpp, Cone.hpp, ExpandTube.hpp, Geometry.hpp, Halfspace.hpp, Polygon.hpp, PolymorphicGeometry.hpp, Union.hpp
* `include/fub/initial_data/`: Constant.hpp
* `include/fub/ode_solver/`: OdeSolver.hpp
* `include/fub/output/`: AsOutput.hpp, CounterOutput.hpp
* `include/fub/p4est/`: P4est.hpp
* `include/fub/solver/`: SolverFacade.hpp, SubcycleCoarseFirstSolver.hpp
* `include/fub/split_method/`: GodunovSplitting.hpp, StrangSplitting.hpp, StrangSplittingLumped.hpp
* `include/fub/tagging_method/`: TagBuffer.hpp, TagCutCells.hpp
* `src/`: RunSimulation.cpp
* `src/AMReX/`: CartesianGridGeometry.cpp, DiffusionSourceTerm.cpp, ScopeGuard.cpp
* `src/AMReX/MLMG/`: MLNodeHelmDualCstVel_1D_K.cpp, MLNodeHelmDualCstVel_3D_K.cpp, MLNodeHelmDualLinVel_1D_K.cpp, MLNodeHelmDualLinVel_3D_K.cpp
* `src/AMReX/cutcell/`: ComputeRegularFluxes.cpp, HGridFluxMethod.hpp, IndexSpace.cpp
* `src/AMReX/cutcell/boundary_condition/`: BoundarySet.cpp, MachnumberBoundary.cpp, TransmissiveBoundary.cpp, TurbineMassflowBoundary.cpp
* `src/AMReX/cutcell/output/`: DebugOutput.cpp, WriteHdf5Impl.hpp
* `src/AMReX/cutcell/tagging_method/`: ConstantRegion.cpp, TagBuffer.cpp, TagCutCells.cpp
* `src/AMReX/multi_block/`: MultiBlockGriddingAlgorithm2.cpp, MultiBlockPlotfileOutput.cpp
* `src/AMReX/output/`: WriteHdf5Impl.hpp
* `src/AMReX/tagging_method/`: TagBuffer.cpp
* `src/SAMRAI/`: ScopeGuard.cpp, ViewPatch.cpp
* `src/cutcell_method/`: HGridReconstruction.cpp
* `src/equations/advection/`: GodunovMethod.cpp, MusclHancockMethod.cpp
* `src/equations/burgers/`: GodunovMethod.cpp, MusclHancockMethod.cpp
* `src/equations/euler_equations/`: EinfeldtSignalVelocities.hpp
* `src/equations/ideal_gas_mix/`: EinfeldtSignalVelocities_1d.cpp, EinfeldtSignalVelocities_2d.cpp, EinfeldtSignalVelocities_3d.cpp, HlleMethod_1d.cpp, HlleMethod_2d.cpp, HlleMethod_3d.cpp, IdealGasEquation.cpp, MusclHancockCharacteristicMethod_1d.cpp, MusclHancockCharacteristicMethod_2d.cpp, MusclHancockCharacteristicMethod_3d.cpp, MusclHancockMethod.cpp, MusclHancockPrimMethod_1d.cpp, MusclHancockPrimMethod_2d.cpp, MusclHancockPrimMethod_3d.cpp
* `src/equations/ideal_gas_mix/flux_method/`: HlleGodunovMethod.cpp, MusclHancockMethod.cpp
* `src/equations/ideal_gas_mix/mechanism/`: AramcoMech_DMEonly_74spec.cpp, AramcoMech_woC3H4_91spec.cpp, Gri30.cpp, Zhao2008Dme.cpp
* `src/equations/perfect_gas/`: EinfeldtSignalVelocities_1d.cpp, EinfeldtSignalVelocities_2d.cpp, EinfeldtSignalVelocities_3d.cpp, ExactRiemannSolver_1d.cpp, ExactRiemannSolver_2d.cpp, ExactRiemannSolver_3d.cpp, GodunovMethod_1d.cpp, GodunovMethod_2d.cpp, GodunovMethod_3d.cpp, HllemMethod_1d.cpp, HllemMethod_2d.cpp, HllemMethod_3d.cpp, MusclHancockCharacteristicMethod_1d.cpp, MusclHancockCharacteristicMethod_2d.cpp, MusclHancockCharacteristicMethod_3d.cpp, MusclHancockMethod_1d.cpp, MusclHancockMethod_2d.cpp, MusclHancockMethod_3d.cpp, MusclHancockPrimMethod_1d.cpp, MusclHancockPrimMethod_2d.cpp, MusclHancockPrimMethod_3d.cpp, ThirdOrderRungeKuttaMethod_1d.cpp
* `src/equations/perfect_gas_mix/`: CutCellMethodFactory.cpp, EinfeldtSignalVelocities_1d.cpp, EinfeldtSignalVelocities_2d.cpp, EinfeldtSignalVelocities_3d.cpp, FluxMethodFactory.cpp, HllemMethod_1d.cpp, HllemMethod_2d.cpp
* `src/equations/shallow_water/`: GodunovMethod.cpp, HllMethod.cpp, MusclHancockMethod.cpp
* `src/ext/`: CopyInputFile.cpp, Mpi.cpp, Timer.cpp, Version.cpp

Reasons: adapters to AMReX and SAMRAI data structures beyond those listed, Cantera-based chemistry, Python bindings, file output, program option parsing and logging need the external libraries and have no behaviour of their own that could be stated without them; the remaining files have not been reached yet.

## Axioms of the claimed theorems

* none: `assert_plain_partial`, `assert_throws_inverted`, `burke_names_injective`, `context_copy_keeps`, `inflow_high_wrong`, `pool_destroy_size`, `row_count_vector`, `samrai_context_copy_shares`, `samrai_grid_copies`, `script_options_leak`, `tagBuffer1_wrong`, `valve_round_trip`
* propext: `block_gridding_copy_shares_valves`, `clamp_rejects`, `command_line`, `context_copy_clocks_undefined`, `context_copy_loses_callbacks`, `coupled_box_partial`, `debug_cycle`, `default_ghost_cells_source`, `faces_copy_null_2d`, `gas_no_probes_undefined`, `igm_var_names_single`, `ignition_round_trip`, `log_console_filter`, `mb_pre_level`, `mb_stable_dt`, `multiBlock_copy_loses_plena`, `multiBlock_copy_partial`, `muscl2Masked_covered`, `muscl2Masked_sides`, `no_plenum_undefined`, `option_direction_unchecked`, `option_number`, `option_string`, `option_value`, `options_bad_section`, `options_missing_section`, `options_section`, `probe_nonregular`, `row_count_partial`, `script_options`, `strided_overlap`, `subspan_empty_misplaced`, `system_source_stable`, `timer_lost`, `timer_value`, `too_few_ghost_cells`, `tube_probes_are_first_tube`, `tube_probes_partial`, `vector_views_wrong`
* propext, Classical.choice, Quot.sound: `MixtureAt.content`, `MixtureAt.unique`, `accumulate_cells`, `adapterStableDt_spec`, `advection_stable`, `advective_fluxes_copy_partial`, `advective_fluxes_fit`, `advective_fluxes_regrid`, `amr_conservative`, `amr_conservative_noSubcycle`, `amr_synchronised`, `anySplit3_schedule`, `anySplit_changes_strang3`, `array_load_lanes`, `arrhenius_burns`, `arrhenius_cold`, `arrhenius_cold_drift`, `arrhenius_conserves`, `arrhenius_lean`, `arrhenius_negative`, `arrhenius_step`, `average_flux_closed`, `average_flux_conserves`, `average_mean`, `average_range`, `average_uncovered`, `avgdown_bounds`, `axi_source_inflow_dropped`, `axi_source_partial`, `axi_source_skips`, `axi_source_time`, `axi_species_rate`, `axi_species_wrong`, `axial_amr_conserves_partial`, `axial_amr_not_conservative`, `axial_at_rest`, `axial_coarsen_not_conservative`, `axial_conserves`, `axial_constant_area`, `axial_rest_hllem`, `axial_source_exact`, `axial_source_isentropic`, `axial_source_needs_area`, `axial_source_reads`, `axial_source_shifted`, `axial_source_steps`, `axial_source_trivial`, `axial_step_balance`, `axial_sweep_faces`, `axial_update_cells`, `ball_partial`, `ball_wrong`, `bcDoit_spec`, `bisect_spec`, `block_ghost_fill`, `block_gridding_boundaries`, `block_gridding_copy_partial`, `block_gridding_regrid`, `block_run`, `block_updates_none`, `block_updates_prefix`, `blocks_fresh_interrupted`, `blocks_mixed_partial`, `blocks_round_trip`, `boundarySet_reflective`, `boundarySet_reflective_wrong_order`, `boundarySet_transmissive`, `burgers_boundary_overshoot`, `burgers_max_principle`, `burgers_riemann`, `burgers_tvd`, `burke_atoms_conserved`, `burke_cp_is_derivative`, `burke_cv_negative`, `burke_energy_curve`, `burke_energy_gap`, `burke_enthalpy_drops`, `burke_equations_balanced`, `burke_gamma_range`, `burke_heat_capacity_bound`, `burke_loss_proportional`, `burke_mass_action`, `burke_mass_conserved`, `burke_molar_mass_atoms`, `burke_quasi_positive`, `burke_rate_coeff_pos`, `burke_small_step_nonneg`, `burke_solution_conserves`, `burke_temperature_lanes_partial`, `burke_temperature_round_trip_partial`, `burke_thermo_lane_partial`, `burke_thermo_lane_window`, `cell_polygon_fluid`, `charReconstruct_mach_wrong`, `charReconstruct_predictor`, `checkpoint_all_or_nothing`, `checkpoint_forgets_nodes_partial`, `checkpoint_ratio_unchecked_partial`, `checkpoint_round_trip`, `checkpoint_too_many_levels_partial`, `clock_wrong_after_regrid`, `clocks_agree_partial`, `coarse_clock_exact`, `coarse_levels_lose_tubes`, `composite_compatible`, `composite_constant`, `composite_split`, `composite_total`, `composite_weak`, `composition_duplicate`, `composition_exception_state`, `composition_line_break`, `composition_malformed_number`, `composition_undefined`, `compressor_ratio_bounds`, `compressor_ratio_default`, `compressor_ratio_wrong`, `computeConstants_valid`, `computeStableDt_spec`, `cone_not_distance`, `cone_sign_partial`, `connected_iff`, `constantBox_partial`, `constantBox_wrong`, `constant_fill`, `containsBox_spec`, `context_copy_no_regrid`, `context_copy_prepared_partial`, `control_averages_partial`, `control_averages_wrong`, `control_compressor_power`, `control_energy_partial`, `control_energy_wrong`, `control_fails`, `control_file_crash`, `control_file_history`, `control_fuel`, `control_mass`, `control_names_exhausted`, `control_pressure`, `control_regulation`, `control_restarts_keep_all`, `control_rpm`, `control_sec`, `control_turbine`, `coupled_box_misplaced`, `coupled_mass`, `create_ratio_wrong`, `crossedLine_spec`, `ctx_run_clock`, `cutCompleteLevelScalar_spec`, `cutCompleteLevel_gas`, `cutCompleteRow_spec`, `cutCompleteScalar_spec`, `cutCompleteSimd_spec`, `cutRegularFluxes_spec`, `cutStableDt_mem`, `cutStableDt_spec`, `cut_cell_balance`, `cut_cell_bounded`, `cut_checkpoint_levels_partial`, `cut_checkpoint_round_trip`, `cut_complete_agree`, `cut_complete_copies`, `cut_constant_fill`, `cut_factory_same`, `cut_fluxes_ignore_covered`, `cut_gradient_affine`, `cut_isentropic_fill`, `cut_line_closed`, `cut_line_conservative`, `cut_massflow_fill`, `cut_outflow_fill`, `cut_reflective_fill`, `cut_reflux_content`, `cut_reflux_partial`, `cut_reflux_wrong`, `cut_row_covered_mixed`, `cut_step_all_closed`, `cut_step_attained`, `cut_step_closed`, `cut_step_positive`, `cut_step_stable`, `cut_sweep_first_face`, `cut_sweep_patches_agree`, `cut_sweep_patches_disagree`, `cut_sweep_race`, `cut_sweep_schedule`, `cut_sweep_schedule_partial`, `cut_sweep_tiles`, `cut_uniform`, `cut_update2_balance`, `cut_update2_unbounded`, `cvode_hangs`, `cvode_no_step`, `cvode_normal`, `cvode_observed`, `cvode_observer_overshoots`, `debug_directories_collide`, `debug_directories_distinct_partial`, `debug_face_average_linear`, `debug_flush_complete`, `debug_gather_columns`, `debug_gather_geometry`, `debug_names_not_unique`, `debug_names_unique_partial`, `debug_snapshot_directory`, `decomposition_independent`, `default_ghost_cells`, `diff_coefficients`, `diff_copy_loses_options`, `diff_copy_partial`, `diff_enthalpy`, `diff_flux_down`, `diff_flux_sum`, `diff_flux_zero`, `diff_species_maximum`, `diff_species_maximum_partial`, `diff_step_conserves`, `diff_step_mass`, `diff_tube_conserves`, `diff_unstable`, `dirichlet_mask`, `eb_base_grids`, `eb_base_grids_gas`, `eb_coarsen_partial`, `eb_coarsen_plain`, `eb_coarsen_wrong`, `eb_composite_total`, `eb_flat_wall`, `eb_geometries_differ`, `eb_initialize_bounds`, `eb_initialize_means`, `eb_regrid_means`, `eb_regrid_partial`, `eb_regrid_wrong`, `eb_wall_fraction`, `einfeldt_bounds`, `einfeldt_masked_nan`, `einfeldt_wall`, `embed_keeps`, `energy_curve_of_slopes`, `entropyWave_solves`, `exact_reaches`, `exchange_before_fill`, `expansion_fill`, `face_neighbours`, `face_parts`, `face_parts_rel`, `factory_accepts_only`, `factory_cvode_default`, `factory_selects`, `factory_solvers`, `fan_centroid_edges`, `fan_centroid_inside`, `fan_centroid_start`, `feedback_rpm`, `feedback_run_history`, `feedback_turbine`, `finest_level_sees_tubes`, `first_output_frozen`, `first_plena_ready_partial`, `fluxSeq_spec`, `fluxSimd_eq`, `flux_sweep_all`, `forEachIndexMapping_spec`, `forEachIndex_spec`, `forEachIndex_two`, `forEachRow_empty`, `forEachRow_spec`, `forEachRow_two_partial`, `fuel_changes_inside`, `fuel_depends_on_patches`, `gasExpansion_partial`, `gasExpansion_wrong`, `gas_complete_iff`, `gas_complete_level`, `gas_cons_roundtrip`, `gas_covered_tile`, `gas_covered_zero`, `gas_exact_consistent`, `gas_exact_masked`, `gas_exact_positive`, `gas_exact_signals`, `gas_exact_solution`, `gas_exact_solver`, `gas_flux_versions`, `gas_gamma_only_fails`, `gas_middle_error`, `gas_middle_unique`, `gas_middle_velocity`, `gas_newton_converges`, `gas_newton_derivative`, `gas_pressure_outflow_partial`, `gas_prim_roundtrip`, `gas_probe_rows`, `gas_reflect`, `gas_reflect_wall`, `gas_rotate`, `gas_rotate_flux`, `gas_temperature_mach`, `gas_vacuum_throws`, `gather_differs`, `gather_mirror`, `gather_partial`, `gather_states_partial`, `gather_zero_is_replaced`, `generic_valve_assertion_fails`, `generic_valve_run`, `generic_valve_step`, `get_boundary_lower`, `get_fluxes`, `get_mole_fractions_partial`, `ghost_mirror`, `ghost_refs_stale`, `ghost_sources`, `ghosts_current`, `ghosts_synced`, `godunov_schedule`, `gradRow_partial`, `gradRow_wrong`, `gradTag_spec`, `grad_channel_fails`, `grad_sort_not_an_order`, `grad_stencil_open_partial`, `gradient_components`, `gradient_erased_groups`, `gradient_limiters`, `gradient_linear`, `gradient_plane_partial`, `gradient_space`, `gradient_sweeps`, `grow_shrink`, `gs_node_residual`, `gs_rotation_diverges`, `gs_sweep_fixed`, `halfspace_distance`, `handles_closed_exactly_once`, `hdf5_boxes_chain`, `hdf5_compose_partial`, `hdf5_crash_in_create_loses_times`, `hdf5_crash_misaligns`, `hdf5_cut_box_loses_coarse`, `hdf5_cut_compose_partial`, `hdf5_cut_ranks_add_fractions`, `hdf5_history`, `hdf5_history_with_crashes`, `hdf5_reader_round_trip`, `hdf5_several_reader_mixes_cells`, `hdf5_shape_change`, `hdf5_shape_change_mixes_cells`, `hdf5_zero_is_overwritten`, `helm_apply_const`, `helm_apply_flux`, `helm_checkerboard`, `helm_coarse_ignores`, `helm_coarse_null`, `helm_coarse_operator`, `helm_cross_ghosts`, `helm_diag_neg`, `helm_energy`, `helm_finest_operator`, `helm_ha_const`, `helm_ha_not_conservative`, `helm_ha_partial`, `helm_harmonic_operator_wrong`, `helm_history`, `helm_kernel`, `helm_normalize`, `helm_prepare_consistent`, `helm_sigma_range`, `helm_solvable`, `helm_solvable_incompressible`, `hgrid_mirror_distance_partial`, `hgrid_mirror_leaves`, `hgrid_polygons`, `hgrid_regular_exact`, `hgrid_shielded_exact`, `hgrid_wall_gradient_not_mirrored`, `hgrid_wall_mirror_partial`, `hgrid_wall_uniform`, `hllMaskedDt_spec`, `hll_consistent`, `hll_degenerate`, `hll_gas_consistent`, `hll_gas_run_positive`, `hll_gas_solver_positive`, `hll_gas_step_positive`, `hll_jump_relations`, `hll_pressure_between`, `hll_pressure_flux`, `hll_solver_array_partial`, `hll_solver_array_stale`, `hll_solver_flux`, `hll_solver_upwind`, `hllem_array_3d_contact_false`, `hllem_array_consistent`, `hllem_array_contact_partial`, `hllem_consistent_partial`, `hllem_contact_partial`, `hllem_data_facts`, `hllem_larr_scalar_sign`, `hllem_masked`, `hllem_mirror_partial`, `hllem_pstar`, `hllem_roeA2_pos`, `hllem_scalar_3d_stale`, `hllem_scalar_eq_array_partial`, `hllem_solve_larr_loses_momentum`, `hllem_solve_negative_density`, `hllem_solve_same_partial`, `hllem_stable_dt`, `hllem_upwind`, `igmExpansion1d_state`, `igmGhostCut_rest`, `igm_array_is_masked`, `igm_array_round_trip_partial`, `igm_char_array_loop`, `igm_char_fraction_bounds`, `igm_char_prim_differ`, `igm_char_quarter_step`, `igm_char_species_step`, `igm_char_state`, `igm_complete_conserves`, `igm_complete_from_reactor`, `igm_complete_history`, `igm_complete_species_sum`, `igm_einfeldt_bounds`, `igm_einfeldt_masked`, `igm_einfeldt_mirror`, `igm_einfeldt_same`, `igm_einfeldt_versions_differ`, `igm_face_taylor`, `igm_flux_spec`, `igm_flux_species`, `igm_flux_vacuum`, `igm_from_prim_lane`, `igm_from_prim_state`, `igm_lanes_round_trip_partial`, `igm_last_temperature`, `igm_muscl_char_consistent`, `igm_muscl_fraction_bounds`, `igm_muscl_lane_negative`, `igm_muscl_lane_sum`, `igm_muscl_lane_temperature`, `igm_muscl_masked_closed`, `igm_muscl_masked_faces`, `igm_muscl_prim_consistent`, `igm_muscl_scalar_inert`, `igm_muscl_versions_differ`, `igm_predictor_euler`, `igm_prim_round_trip`, `igm_reflect`, `igm_roe_spec`, `igm_rotate_complete`, `igm_rotate_flux`, `igm_round_trip_partial`, `igm_set_reactor`, `ignite_catches_up`, `ignite_count`, `ignite_equivalence`, `ignite_exactly`, `ignite_profile`, `ignite_profile_range`, `ignite_ranks`, `ignite_schedule`, `ignitionDelay_deriv_wrong`, `ignitionDelay_hasDerivAt`, `ignitionDelay_strictAnti`, `ignition_conserves`, `ignition_decay`, `ignition_delay_partial`, `ignition_delay_wrong`, `ignition_small_tau`, `ignition_step`, `impose_neumann`, `inflow_low`, `initialize_complete_wrong`, `initialize_means`, `innerBox_mem`, `inner_demand_differs`, `insulating_cases`, `interp1d_bounds`, `interp1d_cell_centres_shifted`, `interp1d_cell_state`, `interp1d_mean_of_positions`, `interp_affine`, `interp_bounds`, `interpolate_exact_partial`, `interpolate_ratio`, `interpolate_reads_past`, `intersect_spec`, `invert_solid`, `isSplitting_all`, `isentropicExpansion_partial`, `isentropicExpansion_speed`, `isentropicExpansion_wrong`, `isentropic_exact`, `isentropic_perfect`, `isoVelocity_partial`, `isoVelocity_wrong`, `jacobi_diverges`, `jacobi_fixed`, `jacobi_mode`, `jirasek_consistent`, `jirasek_partial`, `jirasek_wrong`, `joint_conserves`, `joint_frame`, `joint_rest_wrong`, `joint_runs`, `joint_unreached`, `joint_upper_wrong`, `kbn_boundary_flux`, `kbn_flux_between`, `kbn_reference`, `kbn_wall_exchange`, `kbn_wall_exchange_wrong`, `kbn_wall_rest`, `kbn_wall_state`, `kinFromMixArray_normalised`, `kinetic_cell_result`, `kinetic_cells_independent`, `kinetic_conserves_partial`, `kinetic_energy_drift`, `kinetic_roundtrip`, `klein_opened`, `level_steps_stable`, `lin_apply_flux`, `lin_consistent`, `lin_diag`, `lin_diag_ha`, `lin_energy`, `lin_gs_list_converges`, `lin_gs_node`, `lin_gs_sweep`, `lin_ha_const`, `lin_ha_normalize_wrong`, `lin_ha_partial`, `lin_jacobi_diag`, `lin_jacobi_fixed`, `lin_kernel`, `lin_normalize_system`, `lin_projection_partial`, `lin_projection_wrong`, `lin_smooth_gs_converges`, `lin_smooth_jacobi_converges`, `lin_solvable`, `lin_solvable_incompressible`, `lin_sum_zero`, `lin_symmetric`, `lind_bounds`, `lm_advect_chi`, `lm_advect_conserves`, `lm_advect_incompressible`, `lm_advect_pt`, `lm_advect_uniform`, `lm_backward_divergence`, `lm_backward_projects`, `lm_coriolis_backward`, `lm_coriolis_energy`, `lm_correct_pv`, `lm_face_divergence`, `lm_flux_linear`, `lm_flux_mirror`, `lm_flux_uniform`, `lm_forward_coriolis`, `lm_initial_projection_partial`, `lm_initial_projection_stale`, `lm_overshoot`, `lm_run_mass`, `lm_stable_dt`, `lm_step_failure_changes`, `lm_step_incompressible`, `lm_step_uniform`, `loadN_lanes`, `log_every_line_prefixed`, `log_message_recovered`, `log_old_file_renamed`, `log_prefix_shows`, `log_rank0_destroys_nothing`, `lp_solves`, `lsq_affine`, `lsq_exists`, `lsq_minimal`, `lumped_schedule`, `mach_boundary_partial`, `mach_boundary_wrong`, `makeOutput_spec`, `make_rotation2`, `make_rotation3`, `make_rotation_flux`, `mapLeft_bijective`, `mapRight_bijective`, `mass_fraction_lanes`, `mass_fraction_lanes_negative`, `massflowGhost_spec`, `massflow_box_not_refined`, `massflow_cut_partial`, `massflow_cut_wrong`, `massflow_filled`, `massflow_left_choked`, `massflow_left_inverse`, `massflow_left_partial`, `massflow_partly_covered`, `massflow_right_partial`, `massflow_right_wrong`, `massflow_unfilled`, `mat_compose_exact`, `mat_file_reads`, `matlab_grid_3d_wrong`, `matlab_grid_partial`, `matlab_grid_planes`, `matlab_text_header_wrong`, `matlab_text_lines`, `max_dT_wrong`, `mb_bad`, `mb_clocks`, `mb_no_bad_partial`, `mb_tube_times_wrong`, `md_limiter_extremum`, `md_limiter_idempotent`, `md_limiter_misses_open_neighbour`, `md_limiter_optimal`, `md_limiter_partial`, `md_limiter_unchanged`, `meanValue_is_mean_partial`, `meanValue_multiplied_by_tiles`, `meanValue_weights`, `meanX_spec`, `mean_range`, `mex_advance_energy_partial`, `mex_advance_partial`, `mex_enthalpies_ignore`, `mex_enthalpies_wrong`, `mex_equal_cells_differ`, `mex_fractions`, `mex_set_tpx_partial`, `mirror_width`, `mixExpandState_partial`, `mixExpandState_speed`, `mixFromKin_mach`, `mixPressureOfCons_spec`, `mixSetVelocity_spec`, `mix_complete_iff`, `mix_cons_roundtrip`, `mix_flux`, `mix_pressure_outflow_partial`, `mix_prim_roundtrip`, `mix_reflect_rotate`, `multiInvoked_spec`, `multi_from_options`, `muscl2Lane_reads`, `muscl_char_consistent`, `muscl_char_eq_prim`, `muscl_char_linear`, `muscl_char_masked`, `muscl_char_masked_central`, `muscl_char_mirror_partial`, `muscl_char_predictor`, `muscl_char_roundtrip`, `muscl_gas_closed_nan`, `muscl_gas_open`, `muscl_gas_uniform`, `muscl_implementations_agree`, `muscl_limiters`, `muscl_prim_consistent`, `muscl_prim_limiter`, `muscl_prim_limiter_units`, `muscl_prim_masked`, `muscl_prim_mirror_partial`, `muscl_prim_negative_density`, `muscl_prim_positive_partial`, `muscl_prim_predictor`, `my_shielded_covered`, `my_stable_between_partial`, `my_stable_loses_doubly_shielded`, `my_stable_uniform`, `nearestCell_full`, `neighborhood_spec`, `nested_strang_ghost_cells`, `newton_converged_of_lower`, `newton_converged_partial`, `newton_fixed`, `newton_negative_residual`, `newton_nonneg`, `newton_stays_in_bracket`, `nextOutputTime_single`, `noLimiter_overshoots`, `noSubcycle_schedule`, `no_subcycling_ghosts_partial`, `no_subcycling_refs`, `no_subcycling_stale_ghosts`, `nodal_mask`, `node_div_adjoint`, `node_div_sum`, `node_divergence`, `node_rhcc`, `odeRhsSetP_eq`, `ode_rhs_energy`, `ode_solution_conserves`, `ompLocal_min`, `ompLocal_threads_isolated`, `openedAfter_run`, `outputOptions_defaults`, `output_block_no_plenum`, `output_block_partial`, `output_construction_keeps_files`, `output_duplicated_after_failure`, `output_fresh_partial`, `output_names_exhausted`, `output_runs_keep_all`, `paired_restore_state`, `patch_split_step`, `patch_steps_level`, `patch_transmissive`, `patch_transmissive_fallback`, `patch_transmissive_order`, `patch_transmissive_small`, `plena_share_file`, `plenum_closed`, `plenum_flows`, `plenum_mass`, `plenum_open`, `plenum_probe_file_renamed`, `plenum_unset`, `pointer_components`, `polygon_distance`, `polygon_empty`, `polygon_width`, `pool_cycle`, `pool_partial`, `pre_shock_state`, `pressureValve_fill`, `pressureValve_no_boundary`, `pressureValve_unfilled`, `pressure_outflow_wrong`, `primReconstruct_jump`, `primReconstruct_mach`, `primReconstruct_predictor`, `probe_history`, `probe_rows`, `probe_run_files`, `production_rates_partial`, `production_rates_stale`, `radau_retry_duration`, `radau_retry_partial`, `radau_retry_twice`, `reactor_after_advance`, `reactor_stale_after_advance`, `reactor_thermo_consistent_partial`, `reconstructInvers_fails`, `reconstructInvers_partial`, `reconstructInvers_wrong`, `reconstruct_constant`, `reconstruction_in_range`, `reduce_embed`, `reduce_pressure`, `reduced_index`, `reduced_model_opened`, `reference_gradient_wrong`, `reference_stale`, `reference_state_exact_partial`, `refine_coarsenable`, `reflective_fill`, `reflective_fill_gas`, `reflective_wall_hll`, `reflux_diagonal_wrong`, `reflux_elsewhere`, `reflux_fine_part`, `reflux_gradient_partial`, `reflux_wrong`, `refs_current_partial`, `registerOutput_result`, `register_first_wins`, `registry_gather`, `registry_records`, `regrid_complete_partial`, `regrid_complete_witness`, `regrid_complete_wrong`, `regrid_conserves`, `regrid_conserves_needs_means`, `regrid_frequency_stale_ghosts`, `regrid_keeps_cells`, `regrid_means`, `regrid_once`, `regrid_times`, `regular_space_levels`, `regular_space_unknown`, `require_massflow`, `require_massflow_accuracy`, `require_massflow_fails`, `require_massflow_found`, `requiredMassflow_spec`, `res_cf_partial`, `res_cf_wrong`, `restart_continues`, `restart_first_level`, `restart_from_file`, `restart_skips_regrid_partial`, `restrict_affine`, `retry_uses_reported_dt`, `riemann_data`, `rk3_consistent`, `rk3_diffusion_direction`, `rk3_interpolation`, `rk3_local_is_global`, `rk3_stable_dt_partial`, `rotateAroundPoint_solid`, `rotateAxis_solid`, `row_components`, `run_attempts`, `run_no_output_skipped`, `run_terminates`, `run_time_le_final`, `run_time_monotone`, `samrai_cell_coordinate`, `samrai_coordinates_agree`, `samrai_domain`, `samrai_faces`, `samrai_fill_first_partial`, `samrai_fill_iff`, `samrai_fill_source`, `samrai_flux_storage`, `samrai_ids_distinct`, `samrai_pre_advance`, `samrai_register_again`, `samrai_register_conflict`, `samrai_update_cells_partial`, `samrai_update_noop`, `samrai_update_overrun`, `samrai_view`, `samrai_view_scalar`, `samrai_view_throws`, `scalar_run_stable`, `scratch_level_step`, `scratch_levels`, `second_blocks_ready`, `section_edge_fill_partial`, `section_level_wrong`, `section_reflective_fill_partial`, `segDistance_spec`, `select_inRange`, `setIsentropic_partial`, `setIsentropic_species_wrong`, `setPressureIsentropic_spec`, `set_energy_converges`, `set_energy_gap`, `set_energy_lanes_converge`, `set_energy_too_far`, `set_mass_fractions_densities`, `set_mass_fractions_empty`, `set_mass_fractions_spec`, `set_mole_fractions_spec`, `set_pressure_round_trip`, `seventeen_digits`, `shift_spec`, `shock_gap`, `shrink_spec`, `sideways_uncoupled`, `six_digits_lose`, `slanted_average_partial`, `slanted_average_range`, `slanted_front_ignored`, `slanted_front_wrong`, `slanted_full_cells_partial`, `slanted_ghosts`, `slanted_ghosts_kept`, `slanted_no_wall`, `sliceLast_addr`, `slice_average`, `slice_average_range`, `smooth_gs_converges`, `smooth_jacobi_converges`, `splitDirections_alternate`, `splitDirections_perm`, `stableDtSeq_partial`, `stableDtSimd_spec`, `stableDt_seq_differs`, `stableDt_seq_infinite`, `stableDt_simd_le_seq`, `stableDt_tiles_differ`, `state_component_get`, `state_component_range`, `state_component_set`, `state_store_load`, `stencil_range`, `storeN_lanes`, `stored_points`, `straight_coarsen_conserves`, `strang3_schedule`, `strang_direction_counts`, `strang_schedule`, `strided_partial`, `subcycle_schedule`, `subcycle_total_time`, `subspan_elem`, `subspan_ext_partial`, `subspan_size`, `substeps_stable`, `subview_addr`, `subview_box_partial`, `subview_components`, `sw_dry_bed_throws`, `sw_exact_signals`, `sw_flux_false`, `sw_flux_partial`, `sw_hll_step_positive`, `sw_middle_unique`, `sw_newton_converges`, `sw_newton_derivative`, `sw_riemann_exact`, `sw_sample_exact`, `sw_signals`, `sw_solver_consistent`, `tagBuffer1_out_of_range`, `tagBuffer2_covers`, `tagBuffer2_partial`, `tagBuffer2_wrong`, `tagBuffer3_partial`, `tagBuffer3_tags_all`, `tagBuffer_zero`, `tagCutCells_spec`, `tc_advance_drift`, `tc_advance_state`, `tc_consistent`, `tc_energy_partial`, `tc_energy_stale`, `tc_gas_law_partial`, `tc_isentropic_slope`, `tc_isentropic_stale`, `tc_pressure_stale`, `tc_set_energy_converges`, `tc_set_energy_memoryless`, `tc_set_energy_state`, `tc_text_stale`, `tc_thermo_partial`, `tc_thermo_uninitialised`, `temperatureForDelay_overshoot`, `temperatureForDelay_partial`, `temperatureForDelay_sound`, `timer_once_partial`, `transmissive_fill`, `tubePlanes_get`, `tube_closed`, `tube_energy`, `tube_fuel`, `tube_gain`, `tube_inflow`, `tube_mean`, `tube_open`, `tube_outflow`, `tube_probe_files_not_renamed`, `tube_probe_outside`, `tube_sections_disjoint`, `tube_solid_partial`, `tube_straight_wrong`, `turbine_average_massflow`, `turbine_cellwise`, `turbine_flux_doubled`, `turbine_flux_offset`, `turbine_flux_partial`, `turbine_flux_wrong`, `turbine_ghost_enthalpy`, `turbine_ghost_expanding`, `turbine_ghost_partial`, `turbine_ghost_scalars`, `turbine_inner_partial`, `turbine_level_wrong`, `turbine_outer_state`, `turbine_outer_stops`, `turbine_same_total`, `turbine_section_ignored`, `turbine_section_wrong`, `turbine_state`, `uncoupled_run`, `union_solid`, `unshielded_centroid_partial`, `unshielded_centroid_wrong`, `updateSeq_spec`, `updateSimd_empty`, `updateSimd_eq`, `update_conservative`, `valveAir_spec`, `valveAir_twice`, `valveFuel_spec`, `valveFuel_twice`, `valve_changes_massflow`, `valve_fluxes`, `valve_fuel_start`, `valve_negative_offset`, `valve_schedule`, `valve_transitions`, `valve_uniform_gas`, `vanLeer_hyps`, `view_components`, `volume_average`, `volume_average_closed`, `volume_average_range`, `wallArea_eq`, `wall_compatible`, `wall_cross_not_conservative`, `wall_energy`, `wall_green`, `wall_middle`, `wall_projection`, `wall_residual`, `wall_riemann`, `wall_symmetric`, `wall_unique`, `withFuel_ratio`
* propext, Quot.sound: `advanceHierarchy_spec`, `advective_fluxes_copy_not_deep`, `block_conditions`, `block_gridding_valves`, `block_updates_missed`, `boundarySet_order`, `burke_inert`, `clamp_spec`, `coarsen_refine`, `composition_text_partial`, `contains_iff`, `copy_block_context`, `counter_stats`, `cutLevelDt_le`, `cut_row_covered`, `cut_row_simd`, `cvode_clone`, `cvode_flags_ignored`, `cvode_sizes`, `debug_partitions`, `debug_save`, `deflagration_valve`, `dot_mask`, `embedIndex_injective`, `embed_project`, `face_parts_simd`, `faces_copy_partial`, `factory_conservative`, `factory_first`, `factory_order`, `first_output_current_partial`, `first_output_wrong`, `first_tubes_never_ready`, `get_boundary_upper`, `godunov_consistent`, `gradient_blocks_undefined`, `gradient_plane_undefined`, `grow_spec`, `handle_self_assignment_closes`, `igm_var_names_length`, `igm_var_names_species`, `ignite_offset_zero`, `ignite_point`, `ignition_length_partial`, `interp1d_beyond_last`, `interp1d_few_positions`, `interp1d_reads_dataset`, `ipow_spec`, `joint_missing_level`, `levelStableDt_spec`, `lm_flux_upwind`, `lm_step_failure`, `log_channel_filter`, `log_other_ranks_overwrite`, `log_ranks`, `log_short_message_lost`, `masked_limiters`, `mat_data_file`, `matlab_text_line`, `mb_source`, `mb_source_dt`, `mb_source_guarded`, `mex_mechanism_first`, `multiNext_spec`, `multiShall_iff`, `muscl_consistent`, `muscl_godunov_closed`, `muscl_vector_closed`, `muscl_vector_covered`, `muscl_vector_open`, `nested_left`, `nested_subspan`, `newton_bracket_best`, `newton_negative_limit`, `noSubcycle_stable`, `ompLocal_accumulate`, `ompLocal_accumulate_zero`, `ompLocal_defined_iff`, `output_block_negative`, `output_block_only_first_plenum`, `plenum_probe_one`, `plenum_probes_scrambled`, `pool_aliasing`, `pool_returns_all`, `pressure_layout`, `radau_integrate_partial`, `radau_retry_undefined`, `reactor_assign_array`, `reactor_assign_wrong_tables`, `reactor_copy_partial`, `reactor_copy_tolerances`, `rebind_exact`, `recompute_ax`, `reference_stored`, `regrid_loses_cycles`, `regular_space_required`, `restart_forgets_opening_partial`, `rollback_undefined`, `rows_cells`, `run_exit_reason`, `run_no_ub`, `run_rollback`, `samrai_cell_coordinate_single`, `samrai_clock`, `samrai_constant_box`, `samrai_data_never_changes`, `samrai_no_reflux`, `samrai_prefix_collision`, `samrai_ratio`, `samrai_restart_loses_time`, `samrai_stale_boundaries`, `samrai_store_iff`, `samrai_tags`, `saving_duration`, `scalar_solvers_consistent`, `second_output_current`, `span_last_dynamic`, `span_last_partial`, `span_sub`, `state_component_count`, `system_source_error`, `system_source_order`, `tagAllOf_spec`, `tube_probe_seen`, `tube_probes_wrong`, `wrap_base`, `wrap_last`

## Not expressible in this model

* Bitwise floating-point results, convergence order towards the PDE solution, run-time performance, MPI message
  interleavings inside AMReX/SAMRAI and file-system behaviour of HDF5/plotfile output are outside the model.
