{"id": "C01", "title": "The run loop never moves time backwards and never passes the final time", "statement": "While RunSimulation runs, the simulated time point is never decreased and never exceeds final_time, whatever step sizes the solver reports as stable and whichever steps fail.", "quantifier": "every solver (any sequence of stable step sizes, failures and error estimates), every output schedule, all run options with cfl>=0 and non-negative estimates, every number of loop iterations", "why_tests_cant": "the sequence of failures and stable step sizes is unbounded and chosen by the numerical data; tests fix one sequence", "anchors": ["include/fub/RunSimulation.hpp: RunSimulation"]}
{"id": "C02", "title": "The run loop stops only for a documented reason, and does stop", "statement": "When RunSimulation returns normally the time point is within smallest_time_step_size of final_time, or max_cycles is non-negative and was reached, or a step failed with do_backup disabled. If stable step sizes are bounded below and every failing step eventually succeeds, it does return.", "quantifier": "all run options, all solvers, all output schedules, every number of steps", "why_tests_cant": "termination and exit conditions range over unbounded executions", "anchors": ["include/fub/RunSimulation.hpp: RunSimulation", "include/fub/RunSimulation.hpp: RunOptions"]}
{"id": "C03", "title": "Attempted step sizes respect CFL, the final time, the next output time and the failure estimate", "statement": "Every step size handed to AdvanceHierarchy is at most cfl times the solver's stable step size (or, right after a failed attempt, at most cfl times the step size reported in the error), and the step never goes beyond the final time or the next scheduled output time.", "quantifier": "all iterations of the run loop, all solvers and output schedules", "why_tests_cant": "tests observe finitely many time steps", "anchors": ["include/fub/RunSimulation.hpp: RunSimulation"]}
{"id": "C04", "title": "A failed time step is completely undone before it is retried", "statement": "With do_backup enabled, after AdvanceHierarchy reports an error the next attempt starts from exactly the solver state (data, time, cycles, configuration) that the failed attempt started from.", "quantifier": "every solver state and every failure history of the run loop", "why_tests_cant": "a failure can occur after any history and the restored state has many components; tests sample a few", "anchors": ["include/fub/RunSimulation.hpp: RunSimulation (backup)", "src/AMReX/IntegratorContext.cpp: IntegratorContext copy constructor", "include/fub/AMReX/IntegratorContext.hpp: IntegratorContext members"]}
{"id": "C05", "title": "No scheduled output time is skipped", "statement": "With an output interval I>0, whenever the simulated time passes a multiple of I, the run loop stops within smallest_time_step_size after that multiple and invokes the output there.", "quantifier": "all intervals, all start times, all solvers' step sizes, every number of steps", "why_tests_cant": "the arithmetic fmod relation must hold at every time reached by any execution", "anchors": ["include/fub/output/OutputAtFrequencyOrInterval.hpp: NextOutputTime, ShallOutputNow", "include/fub/RunSimulation.hpp: RunSimulation"]}
{"id": "C06", "title": "An output is written once per reached state", "statement": "The run loop does not invoke the output twice for the same grid state (same time point and cycle).", "quantifier": "every failure pattern and every output schedule", "why_tests_cant": "double output needs a failing step directly after an output; a schedule-dependent event", "anchors": ["include/fub/RunSimulation.hpp: RunSimulation"]}
{"id": "C07", "title": "A combination of outputs behaves as the union of its members", "statement": "MultipleOutputs reports the earliest of its members' next output times, wants output exactly when some member does, and invokes exactly the members that want output, in registration order, ignoring null members.", "quantifier": "every list of outputs, every grid", "why_tests_cant": "lists of outputs are unbounded", "anchors": ["include/fub/output/MultipleOutputs.hpp: MultipleOutputs"]}
{"id": "C08", "title": "Output factory: first registration wins, unknown names give no output, per-output options win over shared defaults", "statement": "After any sequence of registrations, MakeOutput(name) uses the first factory ever registered under that name and returns null iff none was; shared frequencies/intervals are used only by outputs that do not set their own.", "quantifier": "every sequence of registrations and lookups; every option map", "why_tests_cant": "registration histories are unbounded", "anchors": ["include/fub/output/OutputFactory.hpp: RegisterOutput, MakeOutput", "include/fub/output/MultipleOutputs.hpp: MultipleOutputs ctor"]}
{"id": "C09", "title": "Splitting methods advance every operator by exactly the requested time and stop at the first failure", "statement": "Godunov, Strang and lumped Strang splitting of any number of operators apply each operator for durations that sum to exactly dt; Strang orders are palindromic; after the first failing operator no further operator is applied and its error is returned.", "quantifier": "every number of operators, every dt, every failure pattern", "why_tests_cant": "the recursion depth (number of operators) and the failure position are unbounded", "anchors": ["src/split_method/GodunovSplitting.cpp", "src/split_method/StrangSplitting.cpp", "src/split_method/StrangSplittingLumped.cpp", "include/fub/split_method/SplittingMethod.hpp"]}
{"id": "C10", "title": "Directional splitting visits every direction exactly once and alternates the order", "statement": "MakeSplitDirections is a permutation of all directions for every cycle and subcycle number, and the orders for consecutive cycles are reverses of each other.", "quantifier": "every rank, cycle count and subcycle index", "why_tests_cant": "cycle numbers are unbounded", "anchors": ["include/fub/split_method/SplittingMethod.hpp: MakeSplitDirections"]}
{"id": "C11", "title": "Subcycling advances every level by exactly the coarse step", "statement": "A successful SubcycleFineFirstSolver::AdvanceHierarchy(dt) advances every existing level by exactly dt in total, with (product of refinement ratios) equal substeps on each level, finer levels before coarser ones, and the flux correction and coarsening after each group of fine substeps.", "quantifier": "every number of levels, every refinement ratios, every dt", "why_tests_cant": "recursion depth and ratios are unbounded", "anchors": ["include/fub/solver/SubcycleFineFirstSolver.hpp: AdvanceLevel, AdvanceHierarchy", "include/fub/solver/NoSubcycleSolver.hpp"]}
{"id": "C12", "title": "Coarse step sizes and error estimates are scaled consistently between levels", "statement": "If AdvanceHierarchy is called with dt no larger than ComputeStableDt(), no level is asked to take a substep larger than its own stable step size; and an error from any level is reported as a coarse step size whose substep on that level equals the level's own estimate.", "quantifier": "every number of levels, every ratios, every per-level stable step size", "why_tests_cant": "ratios and hierarchy depths are unbounded", "anchors": ["include/fub/solver/SubcycleFineFirstSolver.hpp: ComputeStableDt, AdvanceLevel, GetTotalRefineRatio", "include/fub/solver/NoSubcycleSolver.hpp: ComputeStableDt"]}
{"id": "C13", "title": "A level is never updated with a step larger than its stable step size", "statement": "In DimensionalSplitLevelIntegrator each directional split step first compares its step size with the stable step size; if it is too large TimeStepTooLarge with this level and this stable step size is returned and neither this direction nor any later one modifies the state.", "quantifier": "every sequence of directions, every step size and state", "why_tests_cant": "depends on data-dependent step sizes along unbounded runs", "anchors": ["include/fub/solver/DimensionalSplitLevelIntegrator.hpp: AdvanceLevelNonRecursively"]}
{"id": "C14", "title": "After a successful hierarchy step all levels agree on the time", "statement": "After a successful AdvanceHierarchy(dt) every level's time point equals the old coarse time plus dt, the coarse cycle count has grown by one and finer ones by the number of their substeps, and the patch hierarchy stores these values.", "quantifier": "every number of levels and refinement ratios, every number of successive steps", "why_tests_cant": "histories of steps and hierarchies are unbounded", "anchors": ["src/AMReX/IntegratorContext.cpp: PostAdvanceLevel, PostAdvanceHierarchy, PreAdvanceLevel"]}
{"id": "C15", "title": "The conservative update conserves", "statement": "Updating a patch with UpdateConservatively changes the sum of each conserved variable over the patch by exactly dt/dx times (flux in minus flux out) at the patch boundary faces.", "quantifier": "every patch size, dt, dx, state and flux data", "why_tests_cant": "sizes and data are unbounded", "anchors": ["src/HyperbolicPatchIntegrator.cpp: UpdateConservatively"]}
{"id": "C16", "title": "Vectorised and sequential updates and flux sweeps compute the same result", "statement": "The SIMD-chunked patch update and flux computation with masked remainder write exactly the same cells with the same values as the sequential loops, and write nothing else.", "quantifier": "every row length and every chunk width", "why_tests_cant": "every remainder length and chunk size must be covered", "anchors": ["src/HyperbolicPatchIntegrator.cpp", "include/fub/flux_method/FluxMethod.hpp: ComputeNumericFluxes"]}
{"id": "C17", "title": "Adaptive refinement with flux correction conserves", "statement": "One coarse step with subcycled fine steps, flux registers, reflux and averaging down leaves the composite integral of the conserved variable changed only by the fluxes through the domain boundary.", "quantifier": "every dimension, number of levels, nested layout, refinement ratio, splitting, and flux values at every substep", "why_tests_cant": "fluxes at each of unboundedly many substeps are arbitrary", "anchors": ["src/AMReX/IntegratorContext.cpp: AccumulateCoarseFineFluxes, ApplyFluxCorrection, CoarsenConservatively, ResetCoarseFineFluxes", "include/fub/solver/SubcycleFineFirstSolver.hpp: AdvanceLevel"]}
{"id": "C18", "title": "Index boxes form an algebra of index sets", "statement": "Intersect is set intersection, Contains is membership, Grow/Shrink change exactly one side and invert each other, Shift/LeftTo/RightTo move to the neighbour, Embed/Project are inverse.", "quantifier": "all boxes (including empty ones), indices, directions and widths, any rank", "why_tests_cant": "unbounded integer boxes and ranks", "anchors": ["include/fub/PatchDataView.hpp: IndexBox, Intersect, Contains, Grow, Shrink, Embed, Project"]}
{"id": "C19", "title": "ForEachIndex visits every index of a box exactly once, in column-major order", "statement": "ForEachIndex over a box (ranks 1 to 4) calls the function exactly once for each index in the box, never for another, with the first coordinate varying fastest.", "quantifier": "all boxes of rank 1..4", "why_tests_cant": "sizes are unbounded", "anchors": ["include/fub/ForEach.hpp: ForEachIndex"]}
{"id": "C20", "title": "Array layouts map distinct in-range indices to distinct in-range offsets", "statement": "For layout_left and layout_right mappings with any extents, the offset map is a bijection from in-range multi-indices onto [0, required_span_size); strided mappings stay within required_span_size.", "quantifier": "every rank and all extents/strides", "why_tests_cant": "unbounded ranks and extents", "anchors": ["include/fub/core/mdspan.hpp: layout_left, layout_right, layout_stride"]}
{"id": "C21", "title": "Sub-views alias exactly the selected elements", "statement": "subspan/SliceLast/Subview of an array view with any combination of all, index and range slices refers at (j...) to the element of the original at the corresponding index, with the extents of the selection.", "quantifier": "all extents, all slices of any rank, including empty ranges", "why_tests_cant": "combinatorially many slice combinations with unbounded sizes", "anchors": ["include/fub/core/mdspan.hpp: subspan", "include/fub/PatchDataView.hpp: Subview, SliceLast"]}
{"id": "C22", "title": "span sub-views stay inside the span", "statement": "first(n), last(n) and subspan(o,n) of a span with valid arguments refer to exactly the first n, last n, and [o,o+n) elements of it.", "quantifier": "every span size and valid count/offset, static and dynamic extents", "why_tests_cant": "sizes are unbounded", "anchors": ["include/fub/core/span.hpp: first, last, subspan"]}
{"id": "C23", "title": "Row iteration covers every cell of a view exactly once", "statement": "ForEachRow over views of rank 1..3 hands out, in order, exactly the rows of the view, each one starting at the address of the row's first element.", "quantifier": "every extents and strides", "why_tests_cant": "unbounded sizes; strides of enclosing arrays vary", "anchors": ["include/fub/StateRow.hpp: ForEachRow"]}
{"id": "C24", "title": "Counters report exactly the recorded samples", "statement": "After any sequence of add calls and resets, count, total, min, max and mean of a Counter are those of the values recorded since the last reset; the registry returns the same counter for the same name forever.", "quantifier": "every history of samples and names", "why_tests_cant": "histories are unbounded", "anchors": ["include/fub/counter/Counter.hpp", "src/counter/CounterRegistry.cpp"]}
{"id": "C25", "title": "Every started timer is recorded exactly once", "statement": "Over any sequence of construction, move construction, move assignment, stop and destruction, each measurement started by get_timer is added to its counter exactly once.", "quantifier": "every operation history over timers", "why_tests_cant": "ownership histories are unbounded", "anchors": ["include/fub/counter/Timer.hpp", "src/counter/Timer.cpp"]}
{"id": "C26", "title": "The pool allocator never hands out memory that is still in use", "statement": "Over any sequence of allocate and deallocate calls, the block returned by allocate is not one that was returned earlier and not yet deallocated.", "quantifier": "every allocation/deallocation history", "why_tests_cant": "aliasing depends on unbounded histories", "anchors": ["src/PoolAllocator.cpp: allocate, deallocate", "include/fub/PoolAllocator.hpp"]}
{"id": "C27", "title": "Newton iteration returns only converged results", "statement": "If NewtonIteration returns a value (does not throw) then the function value at that point is within the requested tolerance in absolute value.", "quantifier": "every function, derivative, start value, tolerance and iteration limit", "why_tests_cant": "the function is an arbitrary parameter", "anchors": ["include/fub/NewtonIteration.hpp: NewtonIteration"]}
{"id": "C28", "title": "Slope limiters are symmetric, bounded by the one-sided differences and vanish at extrema", "statement": "MinMod and VanLeer slopes are zero when the one-sided differences have opposite signs, otherwise lie between zero and twice the smaller difference with its sign (MinMod: at most the smaller one), are symmetric in left/right and odd under sign change; the two minmod/van-Leer implementations agree.", "quantifier": "all real slopes", "why_tests_cant": "the reals cannot be enumerated", "anchors": ["include/fub/flux_method/MusclHancockMethod.hpp: MinMod, VanLeer", "include/fub/flux_method/Gradient.hpp: limiters, CentralDifferenceGradient"]}
{"id": "C29", "title": "Numerical fluxes are consistent", "statement": "For Godunov, HLL and MUSCL-Hancock methods the numerical flux of a constant stencil equals the physical flux of that state, for every equation, signal speeds and step sizes.", "quantifier": "every state, every flux function, every signal-speed estimate, every limiter", "why_tests_cant": "quantifies over all states and user-supplied equations", "anchors": ["include/fub/flux_method/GodunovMethod.hpp", "include/fub/flux_method/HllMethod.hpp", "include/fub/flux_method/MusclHancockMethod.hpp"]}
{"id": "C30", "title": "Sequential and vectorised stable time steps agree", "statement": "ComputeStableDt of a patch is the minimum over all stencils contained in the patch, and the sequential and SIMD implementations return the same value.", "quantifier": "every patch length and every stencil width", "why_tests_cant": "sizes are unbounded", "anchors": ["include/fub/flux_method/FluxMethod.hpp: ComputeStableDt"]}
{"id": "C31", "title": "Burgers: vectorised Riemann solver equals the scalar one and returns the entropy solution", "statement": "For all left and right states both implementations return the same value, which lies between the two states, and whose flux is the Godunov flux (minimum/maximum of u^2/2 over the interval between the states).", "quantifier": "all pairs of real states", "why_tests_cant": "the reals cannot be enumerated", "anchors": ["src/equations/Burgers.cpp: ExactRiemannSolver"]}
{"id": "C32", "title": "Godunov's method for Burgers and advection satisfies a discrete maximum principle and does not increase total variation", "statement": "When the step size does not exceed the step size the method itself reports as stable, every updated cell value lies between the minimum and maximum of its three-cell neighbourhood, and total variation does not grow.", "quantifier": "all grid data, all grid sizes, all step sizes below the stable one, any number of steps", "why_tests_cant": "all real grid data, any number of steps", "anchors": ["include/fub/flux_method/GodunovMethod.hpp", "src/equations/Burgers.cpp", "src/equations/Advection.cpp"]}
{"id": "C33", "title": "HLL flux is conservative across the interface and upwinds supersonic flow", "statement": "The HLL numerical flux satisfies both one-sided Rankine-Hugoniot relations with the intermediate state; if all signals go right it equals the left flux, if all go left the right flux.", "quantifier": "all states, fluxes, signal velocities", "why_tests_cant": "continuous domain", "anchors": ["include/fub/flux_method/HllMethod.hpp"]}
{"id": "C34", "title": "Shallow water flux", "statement": "The shallow water flux in direction d transports height with momentum_d, momentum with velocity momentum_d/height plus hydrostatic pressure.", "quantifier": "all states with positive height", "why_tests_cant": "continuous domain", "anchors": ["src/equations/ShallowWater.cpp: Flux"]}
{"id": "C35", "title": "Perfect gas: conversions between primitive, conservative and complete states are inverse and preserve positivity", "statement": "CompleteFromPrim then reading primitives gives back density, velocity, pressure; CompleteFromCons of the conservative part of a complete state gives back this complete state; positive density and pressure imply positive energy and real speed of sound.", "quantifier": "all ranks, all states with positive density, gamma>1", "why_tests_cant": "continuous domain", "anchors": ["src/equations/PerfectGas.cpp: CompleteFromPrim, CompleteFromCons"]}
{"id": "C36", "title": "Reflection is an involution, keeps density, energy and pressure and reverses the normal mass flux", "statement": "Reflect about any unit normal applied twice is the identity, keeps kinetic energy, and reverses the normal momentum, so wall mass flux of a state with its reflection cancels.", "quantifier": "all states, all unit normals, all ranks", "why_tests_cant": "continuous domain", "anchors": ["src/equations/PerfectGas.cpp: Reflect, Rotate"]}
{"id": "C37", "title": "Reflective boundary fills ghost cells with the mirrored interior cells", "statement": "Every ghost cell behind a face of the domain takes the value of the cell at the same distance on the other side of the wall with the normal momentum negated, no other cell changes, and no cell outside of the patch is touched. The source lies in the domain if the ghost layer is not wider than the domain. Ghost cells at edges and corners are filled by the condition of their last direction only. No mass, energy or tangential momentum flows through the wall.", "quantifier": "all box sizes, ghost widths, sides and directions", "why_tests_cant": "unbounded widths", "anchors": ["src/boundary_condition/ReflectiveBoundary.cpp", "include/fub/boundary_condition/ReflectiveBoundary.hpp"]}
{"id": "C38", "title": "Transmissive boundary copies the nearest interior cell", "statement": "Every ghost cell on a side takes the value of the interior cell adjacent to that side with the same tangential index; interior cells are unchanged.", "quantifier": "all boxes and ghost widths", "why_tests_cant": "unbounded widths", "anchors": ["include/fub/boundary_condition/TransmissiveBoundary.hpp", "src/AMReX/boundary_condition/TransmissiveBoundary.cpp"]}
{"id": "C39", "title": "Boundary sets apply their conditions in order", "statement": "A BoundarySet behaves like applying each of its conditions once, first to last, to the same data. A set of transmissive conditions for all sides fills all ghost cells, edges and corners included, with the nearest cell of the domain, in any order; a set of reflective conditions does so with the mirrored cell when sorted by direction, and not in the opposite order.", "quantifier": "every list of conditions, every data", "why_tests_cant": "lists are unbounded", "anchors": ["src/AMReX/boundary_condition/BoundarySet.cpp"]}
{"id": "C40", "title": "Pressure valve: after opening it alternates between air and fuel and fuel phases start on the configured schedule", "statement": "An evaluation never leaves the valve closed, a closed valve opens with air, the valve goes from air to fuel exactly when the next scheduled fuel time has passed, and back to air exactly if the mean pressure exceeds the threshold; the scheduled and recorded fuel times of a new valve are offset, offset+interval, offset+2 interval, ... however late the evaluations are.", "quantifier": "every history of pressures and times", "why_tests_cant": "histories are unbounded", "anchors": ["src/AMReX/boundary_condition/PressureValveBoundary.cpp: ChangeState_"]}
{"id": "C41", "title": "Implicit geometry combinators are boolean operations on the solid sets", "statement": "A point is in the solid (positive value) of a union exactly if it is in the solid of a member; Invert swaps inside and outside; a half-space is the signed distance to its plane; rotation around a point moves the solid by that rotation; a solid of revolution is invariant under rotations about its axis and has the given cross section.", "quantifier": "every list of geometries, every point", "why_tests_cant": "lists and points are unbounded", "anchors": ["src/geometry/Union.cpp", "src/geometry/Cone.cpp", "src/geometry/Polygon.cpp", "src/geometry/ExpandTube.cpp", "src/geometry/Halfspace.cpp", "include/fub/geometry/Geometry.hpp", "include/fub/geometry/Invert.hpp", "include/fub/geometry/Union.hpp"]}
{"id": "C42", "title": "Polygon distance: vectorised evaluation equals the mathematical definition", "statement": "For every closed polygon, whatever its number of vertices and the SIMD width, the distance has absolute value equal to the minimum over all edges of the distance to that edge, and is positive iff an odd number of edges are crossed.", "quantifier": "every vertex list, query point and chunk width", "why_tests_cant": "vertex lists are unbounded", "anchors": ["src/geometry/Polygon.cpp"]}
{"id": "C43", "title": "Ball and cone level sets have the sign of the solid", "statement": "Ball is positive inside its radius and negative outside, zero on the sphere; cone likewise.", "quantifier": "all points and radii", "why_tests_cant": "continuous domain", "anchors": ["include/fub/geometry/Ball.hpp", "src/geometry/Cone.cpp"]}
{"id": "C44", "title": "Tag buffering tags exactly the cells within the buffer width of a tagged cell", "statement": "After TagBuffer(n), the set of tagged cells is the set of cells with max-norm distance at most n from a previously tagged cell; previously tagged cells remain tagged; no out-of-range access.", "quantifier": "every tag field, size, width, in 1, 2 and 3 dimensions", "why_tests_cant": "unbounded fields", "anchors": ["src/tagging_method/TagBuffer.cpp"]}
{"id": "C45", "title": "Cut-cell tagging tags exactly the cut cells", "statement": "TagCutCells tags every cell with volume fraction strictly between 0 and 1 within the overlap of the boxes and changes nothing else; a conjunction of tagging methods applies each of them in order.", "quantifier": "every volume-fraction field and box", "why_tests_cant": "unbounded fields", "anchors": ["src/tagging_method/TagCutCells.cpp", "include/fub/AMReX/tagging_method/TagAllOf.hpp"]}
{"id": "C46", "title": "Copying a solver, context or hierarchy yields an equivalent object", "statement": "A copied integrator context behaves like the original (same times, cycles, data, configured callbacks), and copying a patch level copies all its data.", "quantifier": "every state of the object and every rank", "why_tests_cant": "state combinations unbounded; depends on history", "anchors": ["src/AMReX/IntegratorContext.cpp", "src/AMReX/PatchHierarchy.cpp: PatchLevel"]}
{"id": "C47", "title": "Regridding keeps level times and cycle counts", "statement": "Creating, remaking or removing levels leaves the time point and the cycle count of every surviving level unchanged, and new levels get those of the parent; no level is regridded twice for the same time point.", "quantifier": "every history of regrids", "why_tests_cant": "histories are unbounded", "anchors": ["src/AMReX/GriddingAlgorithm.cpp: RemakeLevel, MakeNewLevelFromCoarse, ClearLevel, RegridAllFinerlevels", "src/AMReX/IntegratorContext.cpp: PreAdvanceLevel"]}
{"id": "C48", "title": "Characteristic reconstruction is the inverse of the characteristic decomposition", "statement": "Reconstructing with zero time step from the characteristic amplitudes of a primitive slope gives back that slope, for every Mach-number scaling, and the scalar and vectorised versions agree.", "quantifier": "all states, slopes and Mach numbers", "why_tests_cant": "continuous domain", "anchors": ["include/fub/flux_method/Gradient.hpp: ComputeAmplitudes", "include/fub/flux_method/Reconstruct.hpp: CharacteristicsReconstruction"]}
{"id": "C49", "title": "Integer power and clamp", "statement": "clamp(v,lo,hi) is the nearest value in [lo,hi]; ipow(b,e) equals b to the e for every non-negative exponent.", "quantifier": "all values with lo<=hi, all exponents", "why_tests_cant": "unbounded", "anchors": ["include/fub/core/algorithm.hpp"]}
{"id": "C50", "title": "Runtime assertions fire exactly when the asserted condition is violated", "statement": "With assertion checking enabled in throwing mode FUB_ASSERT(x) throws iff x is false.", "quantifier": "both truth values; every checked precondition", "why_tests_cant": "a single inverted macro affects every call site", "anchors": ["include/fub/core/assert.hpp"]}
{"id": "C51", "title": "First order HLL steps keep density and pressure of a perfect gas positive", "statement": "For a perfect gas in any number of dimensions, a line of states with positive density and pressure is mapped by one first order finite volume step with the HLL flux and Einfeldt's signal velocities to states with positive density and pressure, provided the time step is at most half the smallest stable time step the method reports; no assertion of the flux or of CompleteFromCons can fire, and so the scheme can take any number of such steps. The approximate Riemann solver itself returns states of positive density and pressure.", "quantifier": "all adiabatic exponents larger than one, dimensions, directions, lines of admissible states, step sizes within the bound, numbers of steps", "why_tests_cant": "A unit test checks a few shock tubes; near-vacuum data and arbitrarily long runs cannot be sampled.", "anchors": ["include/fub/flux_method/HllMethod.hpp: Hll::ComputeNumericFlux, HllBase::ComputeStableDt, HllBase::SolveRiemannProblem", "src/equations/perfect_gas/EinfeldtSignalVelocities.hpp", "src/equations/PerfectGas.cpp: CompleteFromCons", "src/HyperbolicPatchIntegrator.cpp"]}
{"id": "C52", "title": "Exact Riemann solver of the shallow water equations", "statement": "For states of positive height: the wave curves meet in at most one height, and in one exactly if no dry bed appears; the Newton iteration uses the exact derivative and converges if it may run long enough; in the dry bed case the solver throws. If the height it returns is the exact crossing, the solver fails no assertion and returns the value of the entropy solution (shocks with Rankine-Hugoniot and Lax conditions, rarefactions with constant Riemann invariants, shear wave) at the interface, with positive height; the signals are the speeds of the outer waves. Equal states are returned unchanged.", "quantifier": "all gravities, pairs of states with positive height, both directions, all iteration limits", "why_tests_cant": "continuous domain; every wave pattern and sonic point", "anchors": ["src/equations/ShallowWater.cpp: ComputeMiddleState, ComputeSignals, SolveRiemannProblem", "include/fub/NewtonIteration.hpp"]}
{"id": "C53", "title": "First order HLL steps keep the water height positive", "statement": "With the shallow water signal velocities, which bound the characteristic speeds of both states and enclose zero, the HLL flux never fails its assertion, and a first order step with at most half of the reported stable time step maps positive heights to positive heights.", "quantifier": "all gravities, directions, lines of states with positive height, step sizes within the bound", "why_tests_cant": "continuous domain, near-dry states", "anchors": ["src/equations/ShallowWater.cpp: ShallowWaterSignalVelocities, Flux", "include/fub/flux_method/HllMethod.hpp"]}
{"id": "C54", "title": "The HLLEM flux is consistent and keeps stationary contact and shear waves", "statement": "In every space dimension, scalar and vectorised, with and without Larrouturou's splitting: between equal states the HLLEM flux is the Euler flux; across a stationary contact or shear wave (no normal velocity, equal pressures, arbitrary densities and tangential velocities) there is no flux of mass, tangential momentum and energy and the flux of normal momentum is the pressure; the flux is mirror symmetric; scalar and vectorised versions agree.", "quantifier": "all gases, pairs of states with positive density and pressure, directions, ranks, both variants", "why_tests_cant": "continuous domain; the deviations are in branches that only some ranks or flow directions reach", "anchors": ["src/equations/perfect_gas/HllemMethod.hpp: ComputeNumericFlux"]}
{"id": "C55", "title": "Signals, upwinding and time step of the HLLEM flux", "statement": "The Roe sound speed of two gas states is real and positive, the signals are ordered, the flux is the one-sided Euler flux if all signals have one sign, the returned interface pressure lies between the pressures of the two states, closed faces have zero flux, and with a time step up to the reported stable one no signal used by the flux crosses more than one cell.", "quantifier": "all gases, pairs of states with positive density and pressure, directions, ranks, both variants, cell sizes", "why_tests_cant": "continuous domain, square roots of differences that must not become negative", "anchors": ["src/equations/perfect_gas/HllemMethod.hpp: ComputeNumericFlux, ComputeStableDt"]}
{"id": "C56", "title": "The HLLEM Riemann solver returns gas states", "statement": "For two gas states SolveRiemannProblem returns a state with positive density and pressure; between equal states it returns that state, including its tangential momentum.", "quantifier": "all gases, pairs of states with positive density and pressure, directions, both variants", "why_tests_cant": "a failing pair has to be found in a continuous domain", "anchors": ["src/equations/perfect_gas/HllemMethod.hpp: SolveRiemannProblem", "include/fub/cutcell_method/KbnStabilisation.hpp"]}
{"id": "C57", "title": "Valves of the combustor inflow: never an unset opening time, correct elapsed time", "statement": "Each of the four generic pressure valves, evaluated any number of times, never reaches the assertion that the opening time is set while it is unset; it acts as a wall exactly when its blocking rule says so; otherwise the inflow function gets the non-negative time since the start of the current opening: the first low pressure of the current low pressure phase (Klein's valve), the first low pressure since the pressure last exceeded 1.1 times the compressor pressure (reduced model), or zero (deflagration).", "quantifier": "all valve kinds, all histories of times, inner pressures and compressor states", "why_tests_cant": "histories are unbounded and the hysteresis depends on the whole past", "anchors": ["include/fub/AMReX/boundary_condition/GenericPressureValveBoundary.hpp"]}
{"id": "C58", "title": "A tube follows its centerline", "statement": "The solid of ExpandTube is the union of cylinder sections around the segments of the centerline, cut by planes at its points; neighbouring sections do not overlap; points on the centerline are in the solid and points behind its ends are not.", "quantifier": "all centerlines with at least two points, all radii and query points", "why_tests_cant": "centerlines are unbounded, the domain is continuous", "anchors": ["src/geometry/ExpandTube.cpp"]}
{"id": "C59", "title": "The gradient detector tags exactly the cells with a large relative jump", "statement": "A cell is tagged exactly if it was tagged before or for some direction and some condition its value differs from that of one of its two neighbours in this direction by more than the tolerance relative to the sum of the absolute values; cells without fluid are not used; scalar and vectorised versions agree.", "quantifier": "all ranks, boxes, states, condition lists, volume fractions, vector widths and row lengths", "why_tests_cant": "unbounded fields and row lengths; remainder handling depends on the row length modulo the vector width", "anchors": ["include/fub/tagging_method/GradientDetector.hpp"]}
{"id": "C60", "title": "A constant refinement region is the same physical region on every level", "statement": "ConstantBox tags on each level exactly the cells that lie in the configured box of the coarsest level.", "quantifier": "all ranks, levels, refinement ratios, boxes and tiles", "why_tests_cant": "depends on all combinations of refinement ratios", "anchors": ["src/AMReX/tagging_method/ConstantRegion.cpp"]}
{"id": "C61", "title": "The inverse reconstruction undoes the reconstruction", "statement": "PrimitiveReconstruction::ReconstructInvers applied to the result of Reconstruct with the same slopes, time step, cell width, direction and side returns the original state.", "quantifier": "all ranks, gas states, slopes, time steps, cell widths, directions and sides", "why_tests_cant": "the case distinctions depend on continuous values of slopes and time step", "anchors": ["include/fub/flux_method/Reconstruct.hpp: PrimitiveReconstruction"]}
{"id": "C62", "title": "Conversions of gas mixture states are inverse to each other", "statement": "Primitive to complete and back is the identity; completing the conservative part of a state gives the state back in the scalar, array and masked versions; the assertions hold exactly for positive density and internal energy; the flux is the Euler flux with species and scalars; reflections and rotations keep states.", "quantifier": "all gases, ranks, numbers of species and scalars, states, masks, directions", "why_tests_cant": "equality of real functions over a continuous domain of any number of species", "anchors": ["src/equations/PerfectGasMix.cpp", "include/fub/equations/PerfectGasMix.hpp"]}
{"id": "C63", "title": "Kinetic states describe the complete state", "statement": "The kinetic state of a complete state has mole fractions that are not negative and sum to one; completing it with the velocity of the state gives the state back; setting a velocity changes nothing but momentum and kinetic energy; pressure and internal energy computed from conservative variables are those of the state; scalar and array versions agree.", "quantifier": "all gases including every Mach number scaling, ranks, numbers of species, states, velocities", "why_tests_cant": "equality of real functions over a continuous domain of any number of species", "anchors": ["include/fub/equations/PerfectGasMix.hpp: CompleteFromKineticState, KineticStateFromComplete, SetVelocity, Pressure, InternalEnergy"]}
{"id": "C64", "title": "An isentropic change of pressure keeps entropy, total enthalpy and composition", "statement": "SetIsentropicPressure returns a gas state with the given pressure and the entropy, total enthalpy, mass fractions and passive scalars of the old state.", "quantifier": "all gases, ranks, states and positive pressures", "why_tests_cant": "real powers over a continuous domain", "anchors": ["include/fub/equations/PerfectGasMix.hpp: SetIsentropicPressure", "include/fub/AMReX/boundary_condition/IsentropicPressureExpansion.hpp"]}
{"id": "C65", "title": "An isentropic expansion converts enthalpy into velocity", "statement": "The isentropic expansions return a gas state with the outer pressure and the old entropy whose kinetic energy grew by efficiency times the drop of enthalpy, in the direction of the flow.", "quantifier": "all gases, ranks, states, positive outer pressures, efficiencies between zero and one", "why_tests_cant": "real powers over a continuous domain", "anchors": ["include/fub/equations/EulerEquation.hpp: IsentropicExpansionWithoutDissipation", "src/AMReX/cutcell/boundary_condition/IsentropicPressureBoundary.cpp"]}
{"id": "C66", "title": "The exact Riemann solver for the perfect gas samples the exact solution", "statement": "For two gas states that do not produce a vacuum there is exactly one middle state at which the wave curves meet, the Newton iteration reaches it up to its tolerance given enough iterations, and for the exact middle state the returned state is the value at x=0 of the self-similar entropy solution: shocks obey the jump and entropy conditions, fans keep the Riemann invariants, a contact separates the middle states. The error of an inexact middle pressure is bounded by the residual over the slope. Equal states are returned unchanged, the signals enclose all waves, states that produce a vacuum raise an error, masked-out lanes are zero.", "quantifier": "all perfect gases, ranks, directions, pairs of gas states, rays, iteration limits", "why_tests_cant": "real powers and a Newton iteration over a continuous domain of pairs of states", "anchors": ["src/equations/perfect_gas/ExactRiemannSolver.hpp", "include/fub/equations/perfect_gas/ExactRiemannSolver.hpp"]}
{"id": "C67", "title": "The shielded and unshielded parts partition every face", "statement": "The unshielded, left-shielded, right-shielded and doubly shielded fractions computed for a face of a cut-cell grid are not negative and add up to its open fraction, the relative ones add up to one, unshielded plus left-shielded is the part that continues into the right face, and doubly shielded parts exist exactly if both neighbours are smaller; the scalar and SIMD loops agree.", "quantifier": "all open fractions of a face and its neighbours", "why_tests_cant": "continuous domain of open fractions with all orderings", "anchors": ["src/AMReX/cutcell/FillCutCellData.cpp"]}
{"id": "C68", "title": "The cut-cell update is conservative", "statement": "Volume fraction times the change of a cell is dt/dx times the difference of open fraction times stabilised flux over its two faces minus what the wall takes; over a line of cells only the outer faces and the walls remain, and without wall flux a closed line conserves the total.", "quantifier": "all lines of cells cut by planes of any length, all fluxes, time steps and values", "why_tests_cant": "sum over grids of any size and geometry", "anchors": ["src/AMReX/cutcell/TimeIntegrator.cpp", "src/cutcell_method/KbnStabilisation.cpp"]}
{"id": "C69", "title": "Small cut cells are stable", "statement": "The change of a cut cell in a step is at most dt/dx times the range of the fluxes, however small the cell is, stabilised fluxes lie between the fluxes they are made of, and equal fluxes change nothing.", "quantifier": "all cut-cell geometries with arbitrarily small volume fractions, all fluxes", "why_tests_cant": "must hold uniformly in a volume fraction that tends to zero", "anchors": ["src/AMReX/cutcell/TimeIntegrator.cpp", "src/cutcell_method/KbnStabilisation.cpp"]}
{"id": "C70", "title": "The vectorised cut-cell update equals the scalar one", "statement": "Every cell of a row is updated to the same value for every SIMD width and every length of the row; cells without volume become zero.", "quantifier": "all SIMD widths, row lengths, cell geometries and data", "why_tests_cant": "every remainder of the length modulo the width and every pattern of covered cells", "anchors": ["src/AMReX/cutcell/TimeIntegrator.cpp: UpdateConservatively_Row"]}
{"id": "C71", "title": "Rotations into the frame of a wall are orthogonal and invertible", "statement": "MakeRotation returns for two unit vectors an orthogonal matrix that maps the first to the second; exchanging the arguments gives the inverse; the flux through an inclined face computed in the rotated frame is the Euler flux through this face.", "quantifier": "all pairs of unit vectors in two and three dimensions, all gas states", "why_tests_cant": "continuous domain including nearly and exactly opposite vectors", "anchors": ["include/fub/ext/Eigen.hpp: MakeRotation"]}
{"id": "C72", "title": "No mass and no energy passes an embedded wall", "statement": "The boundary flux of a cut cell exchanges no mass and no energy between fluid and wall, the momentum exchange is normal to the wall and at rest equals the pressure.", "quantifier": "all gas states, wall normals, dimensions and cut-cell geometries", "why_tests_cant": "continuous domain and exact solution of a Riemann problem at every wall", "anchors": ["include/fub/cutcell_method/KbnStabilisation.hpp: PreAdvanceHierarchy, ComputeBoundaryFlux"]}
{"id": "C73", "title": "Refluxing is conservative at cut cells", "statement": "After the flux correction at a coarse-fine boundary the content of a coarse cell is what it would be had it exchanged with the fine level exactly what crossed the fine faces, also if the cell or the faces are cut.", "quantifier": "all geometries of the coarse cell and the faces, all fluxes and refinement ratios", "why_tests_cant": "all combinations of geometry and fluxes", "anchors": ["src/AMReX/cutcell/IntegratorContext.cpp: AccumulateCoarseFineFluxes, ApplyFluxCorrection"]}
{"id": "C74", "title": "The Arrhenius source term converts fuel into product and heat", "statement": "A step keeps density, momentum, passive scalars and the other species, turns fuel into the same amount of product, releases the heat of reaction per burnt fuel, leaves a gas state with non-negative fractions and nothing happens below the switch temperature, over any number of steps.", "quantifier": "all reaction constants, gases, gas states, numbers of species, sequences of time steps", "why_tests_cant": "exponentials over a continuous domain and any number of steps", "anchors": ["src/equations/perfect_gas_mix/ArrheniusKinetics.cpp: Advance_"]}
{"id": "C75", "title": "The ignition delay source term ignites after the given delay", "statement": "Each step keeps density, momentum and passive scalars, keeps the fractions non-negative with sum one, conserves energy plus the heat bound in fuel and radicals, does not create fuel, and releases no heat before the fuel fell to the ignition limit; a gas with the initial fuel fraction is ignited after the delay tau whatever the steps are.", "quantifier": "all options, gases, gas states and sequences of time steps", "why_tests_cant": "exponentials over a continuous domain and any subdivision of the delay into steps", "anchors": ["src/equations/perfect_gas_mix/IgnitionDelayKinetics.cpp: Advance_"]}
{"id": "C76", "title": "The temperature for an ignition delay is found", "statement": "dIgnitionDelay_dT is the derivative of IgnitionDelay; TemperatureForIgnitionDelay ends with the one temperature whose ignition delay is the requested one up to the tolerance.", "quantifier": "all reaction constants, fuel fractions, requested delays, starting temperatures and tolerances", "why_tests_cant": "convergence of a loop without an iteration limit for every input", "anchors": ["include/fub/equations/perfect_gas_mix/PlenaControl.hpp: IgnitionDelay, dIgnitionDelay_dT, TemperatureForIgnitionDelay"]}
{"id": "C77", "title": "The gas turbine control keeps its balances and ranges", "statement": "Over every history of updates the compressor speed stays between its limits, the compressor pressure between the pressures of these speeds with the temperature of the given efficiency, the fuel consumption is the sum of what was burnt, the power of turbine minus compressor is power output plus change of the rotor energy, averaged values stay between the bounds of what is averaged, and the plena keep mass and energy.", "quantifier": "all options, gases and histories of inputs and time steps", "why_tests_cant": "any number of updates with feedback between speed, pressure and power, transcendental compressor map", "anchors": ["include/fub/equations/perfect_gas_mix/PlenaControl.hpp: ControlOptions", "src/equations/perfect_gas_mix/PlenaControl.cpp: Control::UpdatePlena, ChangeRPM, UpdateCompressorFromRPM, UpdateTurbinePlenum", "include/fub/equations/perfect_gas_mix/PlenaControlFeedback.hpp: ControlFeedback"]}
{"id": "C78", "title": "The turbine plenum gives the tube a physical ghost state", "statement": "The ghost state at the end of a combustion tube is a state of the gas. When the tube blows into the plenum the gas is expanded with its entropy and composition to the plenum pressure; when gas flows back it is plenum gas with the total enthalpy of the plenum and its composition.", "quantifier": "all states of the tube and all plenum pressures and temperatures", "why_tests_cant": "transcendental functions of all states, several regimes selected by the state", "anchors": ["src/AMReX/boundary_condition/TurbinePlenumBoundaryCondition.cpp: TurbinePlenumBoundaryCondition::FillBoundary"]}
{"id": "C79", "title": "A pressure outlet imposes its pressure on subsonic outflow only", "statement": "If the velocity normal to the boundary is subsonic, the ghost state has the given pressure and the velocity and temperature of the inner cell; for supersonic outflow it is the inner state.", "quantifier": "all states and boundary pressures", "why_tests_cant": "all states including oblique flow", "anchors": ["src/AMReX/cutcell/boundary_condition/PressureOutflowBoundary.cpp: PressureOutflowBoundary::FillBoundary", "src/AMReX/cutcell/boundary_condition/PressureOutflowBoundary2.cpp"]}
{"id": "C80", "title": "The Mach number boundary imposes its Mach number with the stagnation state of the inside", "statement": "The ghost state is a state of the gas whose velocity in the given direction divided by the speed of sound is the required Mach number, with the stagnation pressure and temperature of the inner state.", "quantifier": "all states and Mach numbers", "why_tests_cant": "transcendental functions of all states", "anchors": ["include/fub/AMReX/cutcell/boundary_condition/MachnumberBoundary.hpp: ExpandState"]}
{"id": "C81", "title": "The isentropic mass flow boundary gives the required mass flow", "statement": "The required mass flow follows from stagnation pressure and temperature by the correlation. The ghost state has the required mass flow up to the tolerance and the entropy, the total enthalpy, the tangential velocities and the composition of the inner state; a state that has the mass flow already is kept.", "quantifier": "all states, areas and required mass flows", "why_tests_cant": "iteration over real numbers, transcendental functions", "anchors": ["include/fub/AMReX/cutcell/boundary_condition/TurbineMassflowBoundary.hpp: ComputeRequiredMassflow, RequireMassflow_Jirasek"]}
{"id": "C82", "title": "The mass flow boundary makes the numerical flux equal to the required mass flow", "statement": "With the ghost velocity of the mass flow boundary the mass flux of the Riemann solver between ghost cell and inner cell is the required one whenever a velocity with this flux exists.", "quantifier": "all inner velocities and required mass fluxes", "why_tests_cant": "all real inputs with a case distinction on sub- and supersonic flow on both sides", "anchors": ["src/AMReX/boundary_condition/MassflowBoundary.cpp: MassflowBoundary::ComputeBoundaryState"]}
{"id": "C83", "title": "The exact mass flow boundary solves the Riemann problem with the required mass flow", "statement": "The state found for a required mass flow is a state of the gas that is connected to the inner state by a physical shock or rarefaction and keeps the tangential velocities; its mass flow is the required one up to the accuracy of the bisection. Throttling of an outflow always succeeds, an unattainable mass flow is reported.", "quantifier": "all states, areas, required mass flows, tolerances and numbers of iterations", "why_tests_cant": "bisection over real numbers and transcendental wave curves", "anchors": ["include/fub/AMReX/cutcell/boundary_condition/TurbineMassflowBoundary.hpp: RequireMassflow_SolveExactRiemannProblem", "include/fub/equations/RequireMassflow.hpp: RequireMassflow_SolveExactRiemannProblem"]}
{"id": "C84", "title": "The mass flow boundary at cut cells imposes the mass flow isentropically", "statement": "The outer state has the required mass flow and is reached from the average inner state by an isentropic change with the same total enthalpy.", "quantifier": "all inner states and required mass flows", "why_tests_cant": "transcendental functions of all states", "anchors": ["src/AMReX/cutcell/boundary_condition/MassflowBoundary.cpp: MassflowBoundary::FillBoundary"]}
{"id": "C85", "title": "Shock initial data are one shock with the given Mach number", "statement": "The state behind the shock is a state of the gas that is connected to the given state in front by a single discontinuity with the speed Mach number times speed of sound, which fulfils the jump and the entropy conditions; fluid cells get one of the two states by the side of the geometry and covered cells zeros.", "quantifier": "all states, Mach numbers and normals", "why_tests_cant": "jump conditions are identities over all real inputs", "anchors": ["include/fub/initial_data/ShockMachnumber.hpp: ShockMachnumber::ComputePreShockState", "include/fub/AMReX/cutcell/initial_data/RiemannProblem.hpp: RiemannProblem::InitializeData"]}
{"id": "C86", "title": "The axial tube integrator is conservative with the cross section areas", "statement": "A step changes the content area times state of every cell by the difference of the fluxes through its faces weighted with the face areas plus the pressure force of the walls; mass, species and energy in the tube change only through its ends, for a tube of constant area the step is the plain conservative update, and gas at rest with uniform pressure stays at rest whatever the areas are. The volume field is computed from the same area function.", "quantifier": "all area functions, states, fluxes, boxes and time steps", "why_tests_cant": "well-balancedness and conservation must hold for every area profile", "anchors": ["include/fub/AMReX/AxialTimeIntegrator.hpp: AxialTimeIntegrator"]}
{"id": "C87", "title": "The axial source term solves the equations of a slowly varying cross section", "statement": "The source integrates exactly (up to its Runge-Kutta error) the ordinary differential equations of quasi one-dimensional flow with the logarithmic derivative of the cross section at the cell; entropy is constant along its exact solutions, gas at rest and constant areas are not changed and every access to the stored slope is inside of its data.", "quantifier": "all area functions, states and time steps", "why_tests_cant": "invariance along solutions is a statement about all real trajectories", "anchors": ["src/AMReX/AxialSourceTerm.cpp: AxialSourceTerm::AdvanceLevel, ComputeDiameters"]}
{"id": "C88", "title": "The diffusion source term conserves mass, species and energy and mixes", "statement": "The diffusive mass fluxes of the species add up to zero, flow against the gradient, vanish for a uniform gas, and the energy flux follows the gradient of the specific enthalpy; a step conserves every species and keeps the total density, and under the step size restriction mass fractions satisfy a maximum principle.", "quantifier": "all states, diffusion coefficients and time steps", "why_tests_cant": "conservation and maximum principle for every field", "anchors": ["src/AMReX/DiffusionSourceTerm.cpp: DiffusionSourceTerm", "include/fub/AMReX/DiffusionSourceTerm.hpp: DiffusionSourceTerm"]}
{"id": "C89", "title": "Copies of the diffusion source term behave like the original and its step is stable", "statement": "A copy has the same options as the original, and the reported stable time step is one for which the explicit step is stable.", "quantifier": "all options and states", "why_tests_cant": "copy behaviour for every option value; stability over all fields", "anchors": ["include/fub/AMReX/DiffusionSourceTerm.hpp: DiffusionSourceTerm", "src/AMReX/DiffusionSourceTerm.cpp: DiffusionSourceTerm::ComputeStableDt"]}
{"id": "C90", "title": "The axi-symmetric source term integrates the geometric source over the time step", "statement": "Every cell with positive radius is advanced over the time step by the source of the equations in cylindrical coordinates, for any direction of the radial velocity and any number of species.", "quantifier": "all states, radii and time steps", "why_tests_cant": "must hold for all signs of the velocity and all species", "anchors": ["src/AMReX/cutcell/AxiSymmetricSourceTerm.cpp: AxiSymmetricSourceTerm"]}
{"id": "C91", "title": "Ignitions follow their schedule and need fuel", "statement": "On every level the j-th ignition belongs to the time offset + j * interval, happens after this time and only in a step in which the measured equivalence ratio exceeds the criterion; the measurement does not depend on how many processes see the cell, and consecutive ignitions are an interval apart.", "quantifier": "all options, sequences of time steps and measurements", "why_tests_cant": "history property over all step sequences", "anchors": ["src/AMReX/IgniteDetonation.cpp: IgniteDetonation::AdvanceLevel, GetNextIgnitionTimePoint", "include/fub/AMReX/IgniteDetonation.hpp: IgniteDetonationOptions"]}
{"id": "C92", "title": "An ignition never cools the gas and has the requested shape", "statement": "Cells within the ramp width around the ignition point are heated to at least the linear ramp with the high temperature at the ignition point and the low temperature at its ends, never cooled, cells left of the ramp are burnt and cells right of it are not changed; the ignition point is the given position if it is inside of the domain.", "quantifier": "all positions, widths and temperatures", "why_tests_cant": "case distinction over real positions", "anchors": ["src/AMReX/IgniteDetonation.cpp: IgniteDetonation::AdvanceLevel"]}
{"id": "C93", "title": "The average of a state over a box is the mean over its cells", "statement": "The average over a box is the arithmetic mean of the cells of the box, however the cells are distributed to processes and tiles; it lies between the smallest and the largest value. Accumulation applies the operation to every cell of the box once.", "quantifier": "all data, boxes, tilings and distributions", "why_tests_cant": "independence of all distributions", "anchors": ["include/fub/AMReX/AverageState.hpp: AverageState, AccumulateState"]}
{"id": "C94", "title": "Data exchanged between blocks of different cell size are exact averages", "statement": "When a ghost layer of one block is filled from another block whose cells have a different size, the k-th ghost cell from the interface gets the mean of the piecewise constant source data over exactly the interval it covers, measured from the interface on both sides; the source is read only where it exists, it is wide enough, and bounds of the data are kept.", "quantifier": "all numbers of ghost cells, cell sizes, ratios, sides and data", "why_tests_cant": "the ratio of the cell sizes is any positive number; off-by-one reads appear only for special ratios", "anchors": ["src/AMReX/multi_block/MultiBlockBoundary2.cpp: InterpolateStates, InterpolateStates_Greater, InterpolateStates_Less, MultiBlockBoundary::ComputeBoundaryData"]}
{"id": "C95", "title": "Cross section averages are volume weighted means independent of the distribution", "statement": "The state handed from a plenum to a tube is, for every slice orthogonal to the interface, the mean of the conservative variables weighted with the open volume of the cells; it does not depend on the distribution of the boxes over processes, it lies in the range of the data, and every cell is added to the slice it belongs to. Data that are gathered without averaging arrive unchanged on every process.", "quantifier": "all box distributions, volume fractions, directions and data", "why_tests_cant": "must hold for every domain decomposition", "anchors": ["src/AMReX/multi_block/MultiBlockBoundary2.cpp: ReduceTotalVolume, IntegrateConserativeStates, AverageConservativeHierarchyStates, AllgatherMirrorData, ReduceDimension"]}
{"id": "C96", "title": "Coupled blocks see each other's state at the mirrored position", "statement": "The k-th ghost cell behind the interface of one block holds the state of the k-th cell of the other block; converting a tube state to the plenum dimension keeps density, momentum, energy, species and pressure, converting back gives the state again, and converting a plenum state to the tube keeps its pressure. A ghost cell whose mirror holds no gas keeps its value.", "quantifier": "all states, boxes, sides and numbers of ghost cells", "why_tests_cant": "must hold for every state with transversal velocity and every position", "anchors": ["include/fub/AMReX/multi_block/MultiBlockBoundary2.hpp: ReduceStateDimension, EmbedState, MultiBlockBoundary::FillBoundary", "src/AMReX/multi_block/MultiBlockBoundary2.cpp: MakeMirrorBox, MakeGhostBox, Flip"]}
{"id": "C97", "title": "Every connection of a block updates the block's own boundary condition", "statement": "For every block and level each of its connections updates exactly the boundary condition that was created for this connection, for any list of connections; blocks without connections are left alone; a copy of the integrator context has the same blocks and functions.", "quantifier": "all lists of connections, numbers of blocks and levels", "why_tests_cant": "the pairing goes wrong only for special orders of the connections", "anchors": ["include/fub/AMReX/multi_block/MultiBlockGriddingAlgorithm2.hpp: MultiBlockGriddingAlgorithm2", "src/AMReX/multi_block/MultiBlockIntegratorContext2.cpp: MultiBlockIntegratorContext2::ComputeMultiBlockBoundaryData, MultiBlockIntegratorContext2"]}
{"id": "C98", "title": "Fluxes of coupled blocks are conservative", "statement": "The flux that a tube gets from the plenum, times the open area of the interface, is the sum of the fluxes through the open faces of the plenum at the interface, on both sides and for every distribution; a closed interface has no flux.", "quantifier": "all face areas, fluxes, sides and distributions", "why_tests_cant": "conservation must hold for every field and every decomposition", "anchors": ["src/AMReX/multi_block/MultiBlockIntegratorContext2.cpp: AverageFlux_, GetBoundary"]}
{"id": "C99", "title": "The nodal pressure operator is the divergence of the weighted gradient", "statement": "Applying the nodal linear operator gives, at every node that is not masked, the discrete divergence of the flux (scalar plus cross coefficient times the discrete gradient) plus the diagonal times the nodal value, and zero at masked nodes; the fluxes handed back after a solve are minus the coefficient times the same gradient; a constant is annihilated up to the diagonal; on a periodic grid divergence and gradient are negative adjoints, the divergence sums to zero and the energy identity holds.", "quantifier": "all coefficient fields, masks, nodal fields, cell sizes and periodic grids", "why_tests_cant": "an identity between three hand-written stencils for all coefficients", "anchors": ["src/AMReX/MLMG/MLNodeHelmDualCstVel_2D_K.cpp: mlndhelm_adotx, mlndhelm_divu, mlndhelm_mknewu, mlndhelm_normalize", "src/AMReX/MLMG/MLNodeHelmDualCstVel.cpp: MLNodeHelmDualCstVel::compDivergence, MLNodeHelmDualCstVel::getFluxes"]}
{"id": "C100", "title": "The pressure equation is solvable and its solution is unique as far as the gradient is concerned", "statement": "With positive coefficients, opposite cross coefficients and a strictly negative diagonal the equation has exactly one solution for every right-hand side; without diagonal it has a solution whenever the right-hand side is a divergence, and two solutions have the same gradient.", "quantifier": "all periodic grids, admissible coefficients and right-hand sides", "why_tests_cant": "existence for every right-hand side is a statement about all fields", "anchors": ["src/AMReX/MLMG/MLNodeHelmDualCstVel_2D_K.cpp: mlndhelm_adotx", "src/AMReX/solver/BK19LevelIntegrator.cpp: DoEulerBackward_"]}
{"id": "C101", "title": "Smoothers do not move the solution and grid transfer is consistent", "statement": "A Jacobi or Gauss-Seidel sweep leaves a field unchanged exactly if it solves the equation at every unmasked node (and is zero at the masked ones); a Gauss-Seidel update makes the residual of the updated node vanish; coefficient averages stay within the range of the fine coefficients; restriction keeps affine fields and interpolation keeps bounds and, for equal coefficients, affine fields.", "quantifier": "all coefficients, masks, right-hand sides, boxes and fields", "why_tests_cant": "convergence to the right fixed point for every coefficient field", "anchors": ["src/AMReX/MLMG/MLNodeHelmDualCstVel_2D_K.cpp: mlndhelm_jacobi, mlndhelm_gauss_seidel, mlndhelm_adotx_ha, mlndhelm_avgdown_coeff_x, mlndhelm_avgdown_coeff_y, mlndhelm_restriction, mlndhelm_interpadd_ha", "src/AMReX/MLMG/MLNodeHelmDualCstVel.cpp: MLNodeHelmDualCstVel::Fsmooth"]}
{"id": "C102", "title": "The advection of the low Mach solver is upwind, conservative and keeps uniform fields", "statement": "The advective flux takes the reconstruction from the upwind side and reduces to the carried quantity for uniform data; it is mirror symmetric and exact for linear profiles; the stable time step is the minimum of the crossing times; on a periodic grid every sequence of sweeps conserves density, momentum and PTdensity, keeps uniform velocity and potential temperature, and changes PTdensity by exactly the divergence of the face values.", "quantifier": "all states, face values, sweeps and grids", "why_tests_cant": "must hold for every velocity field and splitting", "anchors": ["src/equations/CompressibleAdvection.cpp: ComputeNumericFluxes, LimitSlopes, ComputeStableDt", "include/fub/equations/CompressibleAdvection.hpp: CompressibleAdvectionFluxMethod", "src/AMReX/solver/BK19LevelIntegrator.cpp: Advect_"]}
{"id": "C103", "title": "The implicit source step solves the Coriolis and pressure equations", "statement": "With a unit rotation axis the implicit Coriolis step solves its linear system exactly and the trapezoidal combination keeps the kinetic energy; after the implicit step with an exact linear solver the mass weighted velocity satisfies the discrete pressure equation, in the pseudo-incompressible case it is free of divergence at every node; density and PTdensity are not changed. The initial projection makes the initial velocity free of divergence.", "quantifier": "all states, axes, time steps, pressures and exact linear solvers", "why_tests_cant": "the coefficients of operator, right-hand side and correction must match for every state", "anchors": ["src/AMReX/solver/BK19LevelIntegrator.cpp: DoEulerBackward_, DoEulerForward_, ComputeKCrossM_, AverageCellToFace_, ComputePvFromScratch_, BK19LevelIntegrator::InitialProjection"]}
{"id": "C104", "title": "A step of the low Mach solver keeps divergence freedom, mass and uniform flow", "statement": "Any number of successful steps conserves total mass and total PTdensity; in the pseudo-incompressible model a divergence-free state stays divergence-free and PTdensity does not change in any cell; a uniform flow with a pressure without gradient stays uniform and only its momentum rotates, with constant magnitude. A step that fails leaves density and PTdensity as they were.", "quantifier": "all numbers of steps, step sizes, states, splittings and exact linear solvers on periodic grids", "why_tests_cant": "a claim about arbitrarily long runs and every state", "anchors": ["src/AMReX/solver/BK19LevelIntegrator.cpp: BK19LevelIntegrator::AdvanceLevelNonRecursively, RecomputeAdvectiveFluxes"]}
{"id": "C105", "title": "The slope limiter of the cut-cell method terminates, never overshoots and limits no more than necessary", "statement": "For every cell, every gradient and every field the linear-optimization limiter returns without exception or failed assertion. The limited gradient is the given one scaled in each direction by a factor between 0 and 1; the linear reconstruction with it stays between the values of the cell and of every connected neighbour at the centroid of that neighbour; no other such factors keep more of the gradient. A gradient that overshoots nothing is returned unchanged, and at a local extremum away from walls the result is zero.", "quantifier": "all geometries, fields, cells, gradients and cell widths; for the solver: all bounded linear problems with any number of constraints, degenerate or not", "why_tests_cant": "Termination without cycling of an active-set method and optimality of its result must hold for every set of constraints; tests only see a few.", "anchors": ["src/cutcell_method/AnyMdLimiter.cpp: SolveLinearOptimizationProblem, IsConnected, LinearOptimizationLimiter", "include/fub/cutcell_method/AnyMdLimiter.hpp: LinearOptimizationLimiter"]}
{"id": "C106", "title": "Gradients of cut cells are least squares fits over open neighbours and exact for affine fields", "statement": "For every cut cell the gradient minimizes the sum of squared errors over the neighbours used, exists as soon as two of them lie in different directions, and equals the gradient of the field if the field is affine in the centroids. If a cell has open faces in both directions, exactly the neighbours behind open faces are used (and the corner between them if there are only two).", "quantifier": "all geometries, fields and cells", "why_tests_cant": "The choice of neighbours depends on a sort by two keys over arbitrary face and volume fractions; the fit must be exact for every position of the centroids.", "anchors": ["include/fub/cutcell_method/MdGradients.hpp: ComputeGradients", "include/fub/CutCellData.hpp: GetAbsoluteVolumeCentroid"]}
{"id": "C107", "title": "States reconstructed next to faces and walls are exact for affine fields and mirror the flow at walls", "statement": "Next to unshielded and singly shielded face parts the reconstructed pair of states consists of the values of an affine field half a cell to either side of the face, with exact gradients. At a wall the state on the fluid side is the reference field half a cell away and the state on the solid side is its mirror image in the wall, so that a uniform flow gives opposite normal velocities; the gradients are those of the mirrored field.", "quantifier": "all geometries, affine fields, cells, directions and wall positions", "why_tests_cant": "Exactness is an identity in the position of the wall inside the cell and in the field; tests use single positions.", "anchors": ["include/fub/cutcell_method/HGridReconstruction.hpp: ReconstructRegularStencil, ApplyGradient", "include/fub/cutcell_method/HGridReconstruction2.hpp: ReconstructSinglyShieldedStencil, ReconstructEmbeddedBoundaryStencil, LinearFunctional"]}
{"id": "C108", "title": "Reference states of walls and stabilised fluxes of the second order cut-cell method are consistent", "statement": "The reference state of every cut cell is the mean of the reconstruction over its sources: for an affine field the value at their centroid with the exact gradient. The stabilised flux of a face is a convex combination of the fluxes of its unshielded and shielded parts, so equal fluxes are reproduced; every part with positive weight has its flux computed; the states of the unshielded part are taken around the middle of that part.", "quantifier": "all open fractions, fields, fluxes and lists of sources", "why_tests_cant": "Face fractions and fluxes are arbitrary reals; bugs show only in rare geometric constellations.", "anchors": ["include/fub/cutcell_method/MyStabilisation.hpp: ComputeBoundaryStates, ComputeCutCellFluxes", "src/cutcell_method/MyStabilisation.cpp: ComputeStableFluxes_Row", "include/fub/cutcell_method/HGridReconstruction.hpp: IntegrateCellState", "src/CutCellData.cpp: GetAbsoluteUnshieldedCentroid, Centroid"]}
{"id": "C109", "title": "A grid file shows the finest data everywhere", "statement": "The fab that the HDF5 output writes for a hierarchy of nested levels, distributed over any number of ranks, has in each cell of the finest index space the value of the finest patch that covers it, for the whole domain or for a requested box. With cut cells the written value is the value of the finest level where it is not zero.", "quantifier": "all numbers of levels, disjoint patches, owners, ranks, boxes and cell values", "why_tests_cant": "The value of a cell depends on the refinement history and on the distribution over ranks; tests run one hierarchy on one rank.", "anchors": ["src/AMReX/output/WriteHdf5Impl.cpp: WriteHdf5UnRestricted", "src/AMReX/output/WriteHdf5Impl.cpp: WriteHdf5RestrictedToBox", "src/AMReX/cutcell/output/WriteHdf5Impl.cpp: WriteHdf5RestrictedToBox"]}
{"id": "C110", "title": "Probes record the state of the finest cell at their position", "statement": "GatherStates returns for each probe and component the value of the finest cell that contains the probe, no matter which rank owns it.", "quantifier": "all probes, hierarchies of levels, patches, owners and numbers of ranks", "why_tests_cant": "Position of the probes, refinement and distribution vary from run to run; tests use one configuration.", "anchors": ["src/AMReX/PatchHierarchy.cpp: GatherStates"]}
{"id": "C111", "title": "A grid file holds all outputs of its history in order", "statement": "After any number of outputs to the same path the file has exactly one entry for each output, and entry t of data, times and cycles belongs to output t. A crash never changes an earlier entry, and the reader that comes with the code returns the value of cell (i, j) at row j and column i.", "quantifier": "all histories of outputs, all extents of the grid and all points in the sequence of the datasets where the program can stop", "why_tests_cant": "The property is about unbounded histories and all crash points; a test writes a few outputs and never crashes.", "anchors": ["src/AMReX/PatchHierarchy.cpp: WriteToHDF5", "src/AMReX/PatchHierarchy.cpp: CreateHdf5Database", "src/AMReX/PatchHierarchy.cpp: OpenHdf5Database", "extra/amrex/h5_io.py: h5_load_spec_timepoint_variable"]}
{"id": "C112", "title": "Starting a run never destroys the output of an earlier run", "statement": "Construction of an output object leaves every file of the file system intact: an old file with the name of the output is renamed to the first free numbered name. After any number of runs the results of all runs are there.", "quantifier": "all file systems, paths and numbers of runs", "why_tests_cant": "It must hold for every state of the file system that earlier runs can leave behind.", "anchors": ["src/AMReX/output/WriteHdf5.cpp: WriteHdf5", "src/AMReX/cutcell/output/WriteHdf5.cpp: WriteHdf5", "src/AMReX/multi_block/MultiWriteHdf5.cpp: MultiWriteHdf5"]}
{"id": "C113", "title": "Probes and blocks are those the user asked for", "statement": "The probe file has at [field, probe, t] the value of the field at the probe in output t. Each tube has the probes listed for it, old probe files are moved away, and the option which_block selects the plenum or the tube with this number.", "quantifier": "all numbers of tubes, plena, probes, fields, outputs and all values of the option", "why_tests_cant": "The index computations must be right for all numbers of tubes and probes; tests have one tube.", "anchors": ["src/AMReX/cutcell/output/LogProbes.cpp: LogProbesOutput", "src/AMReX/cutcell/output/LogProbes.cpp: OpenHdf5Database", "src/AMReX/multi_block/MultiWriteHdf5.cpp: MultiWriteHdf5"]}
{"id": "C114", "title": "Every HDF5 object that is opened is closed exactly once", "statement": "For any sequence of constructions, moves, assignments and destructions of handles, an open identifier has exactly one owner, nothing is closed twice, failed calls are never closed, and when all handles are gone everything is closed.", "quantifier": "all sequences of operations on any number of handles and all identifiers returned by the library", "why_tests_cant": "Ownership errors show up only for particular sequences of moves.", "anchors": ["include/fub/output/Hdf5Handle.hpp: H5Handle"]}
{"id": "C115", "title": "The primitive MUSCL-Hancock method of the perfect gas is consistent, makes no new extrema in space and predicts with the Euler equations", "statement": "For every stencil: the limited slope is zero at extrema, the values at the faces lie between the values of the cell and its neighbours, and the slope of linear data is exact; the face states are the linear profile moved by half a time step of the Euler equations in primitive variables; in a constant flow the flux is the Euler flux for every time step; the mirrored stencil has the mirrored flux (1d and 2d); at a closed cut-cell face the flux is zero, next to a covered cell the state is not extrapolated.", "quantifier": "every stencil of four states, every time step, dimension and direction; every volume and face fraction", "why_tests_cant": "tests run a few shock tubes; positivity, symmetry and the predictor must hold for all states and time steps", "anchors": ["src/equations/perfect_gas/MusclHancockPrimMethod.hpp: ComputeNumericFlux", "include/fub/equations/perfect_gas/MusclHancockPrimMethod.hpp: MusclHancockPrim"]}
{"id": "C116", "title": "The characteristic MUSCL-Hancock method of the perfect gas is consistent and equals the primitive one on smooth data", "statement": "Characteristic amplitudes and recombination are inverse to each other in every direction; for every limited slope the face states are the cell state plus half of the difference, moved by half a time step of the Euler equations; on linear data the method equals the primitive method; constant flows have the Euler flux; symmetric and odd limiters give mirror symmetric fluxes; a covered cell switches the slope off.", "quantifier": "every state, slope, time step, limiter function and direction; every volume fraction", "why_tests_cant": "the limiter is an arbitrary user function and the waves mix all variables: a test cannot cover the combinations", "anchors": ["src/equations/perfect_gas/MusclHancockCharacteristicMethod.hpp: Reconstruct, ComputeSlopes, DoTimeStep, Recombine", "include/fub/equations/perfect_gas/MusclHancockCharactersticMethod.hpp: MusclHancockCharacteristic"]}
{"id": "C117", "title": "The third order Runge-Kutta flux computed face by face is the Runge-Kutta method on the whole grid", "statement": "Every face computes its flux from twelve cells alone. The conservative update with these fluxes is, in every cell of every grid function, the three stage strong stability preserving Runge-Kutta method with viscous and heat fluxes; constant flows have the Euler flux; momentum and heat are diffused down the gradients; the time step bounds the acoustic Courant number by one.", "quantifier": "every grid function, time step, mesh width, viscosity and conductivity", "why_tests_cant": "that neighbouring faces recompute the same intermediate states is a statement about all grid functions and about the index ranges of three nested loops", "anchors": ["src/equations/perfect_gas/ThirdOrderRungeKuttaMethod.hpp: ComputeNumericFlux, CellToEdge_, ComputeDiffusion, ComputeStableDt"]}
{"id": "C118", "title": "The compiled hydrogen mechanism is the law of mass action for balanced equations and conserves mass and atoms", "statement": "The production rates of the Burke 2012 mechanism are, for every vector of concentrations, third body concentrations and rate coefficients, those of the law of mass action for its 27 reversible reactions; every equation is balanced; the molar masses are the sums of the atomic weights; the rates conserve the mass and the atoms of each element exactly; nitrogen, argon and helium are inert.", "quantifier": "every vector of concentrations, rate coefficients, rates, temperature and pressure", "why_tests_cant": "the generated code has hundreds of terms; a dropped or duplicated term changes results only slightly and only for some compositions", "anchors": ["src/equations/ideal_gas_mix/mechanism/Burke2012.cpp: ComputeProductionRates, getMolarMass"]}
{"id": "C119", "title": "Chemistry does not drive concentrations below zero", "statement": "At every positive temperature and pressure all rate coefficients are positive, a fall-off coefficient is at most its high and its low pressure limit, and for every non-negative composition the production rate of a species is at least minus a constant times its own concentration; an absent species is never consumed and small explicit steps keep all concentrations non-negative.", "quantifier": "every positive temperature and pressure, every non-negative composition", "why_tests_cant": "the sign of the rates must hold on the whole composition space", "anchors": ["src/equations/ideal_gas_mix/mechanism/Burke2012.cpp: GetLindRateCoeff, ComputeProductionRates"]}
{"id": "C120", "title": "The thermodynamic tables give positive heat capacities and one sound speed on their range", "statement": "Up to 5000 K each species has a heat capacity of at least 2.4 R, so each mixture has a positive heat capacity at constant volume and 1 < gamma <= 2; scalar and array versions of the tables agree; the heat capacity is the derivative of the enthalpy.", "quantifier": "every temperature up to 5000 K and every composition", "why_tests_cant": "tests evaluate tables at a few temperatures; the bounds are inequalities for polynomials on intervals", "anchors": ["src/equations/ideal_gas_mix/mechanism/Burke2012.cpp: ComputeThermoData"]}
{"id": "C121", "title": "The reactor reports the thermodynamics of its current temperature after every history of calls", "statement": "After every history of calls on a new reactor the reported enthalpy, heat capacity and internal energy are those of the current composition and temperature.", "quantifier": "every mechanism and every history of setters, getters and time integrations, for every behaviour of the ODE solver", "why_tests_cant": "the tables are cached; whether the cache is stale depends on the history of calls", "anchors": ["src/equations/ideal_gas_mix/FlameMasterReactor.cpp: UpdateThermoState, SetTemperature, Advance, GetEnthalpy, GetInternalEnergy"]}
{"id": "C122", "title": "Setting the composition of the reactor normalises it", "statement": "Every vector with a positive entry is clipped at zero and divided by its sum: the mass fractions are non-negative, sum to one and have the given proportions; partial densities give mass fractions; mole fractions x give Y = x M / sum x M and are recovered; scalar, array and masked versions agree.", "quantifier": "every vector, mechanism and reactor state", "why_tests_cant": "normalisation, clipping and the versions differ only on unusual vectors", "anchors": ["src/equations/ideal_gas_mix/FlameMasterReactor.cpp: SetMassFractions, SetMassFractionsArray, SetMoleFractions"]}
{"id": "C123", "title": "What the reactor reports for pressure, mole fractions, production rates and ignition time belongs to its state", "statement": "A pressure which was set is read back; GetMoleFractions returns the mole fractions; GetProductionRates uses the concentrations of the current density and composition; AdvanceAndFindMaxdT finds the time of the steepest temperature rise.", "quantifier": "every reactor state and every sequence of accepted steps", "why_tests_cant": "stale members are invisible unless the calls come in a particular order", "anchors": ["include/fub/equations/ideal_gas_mix/FlameMasterReactor.hpp: GetPressure, SetPressure", "src/equations/ideal_gas_mix/FlameMasterReactor.cpp: GetMoleFractions, GetProductionRates, AdvanceAndFindMaxdT"]}
{"id": "C124", "title": "The reactor equations conserve mass, atoms and internal energy", "statement": "The temperature derivative keeps the internal energy per volume constant, and along every solution of the equations the mass, the atoms and the internal energy in the volume are constant.", "quantifier": "every mechanism which conserves mass and whose heat capacities are derivatives of its enthalpies; every solution curve", "why_tests_cant": "conservation along all solutions is a statement about the differential equation, not about a numerical run", "anchors": ["src/equations/ideal_gas_mix/FlameMasterReactor.cpp: OdeRhsAdvance"]}
{"id": "C125", "title": "A composition written as text is read back", "statement": "Every list of distinct species with values, written as 'name: value, name: value', is read as the values divided by their sum; other species get zero; a malformed text raises an exception and leaves the reactor unchanged.", "quantifier": "every list of species and values, every text", "why_tests_cant": "parsers fail on texts nobody thought of", "anchors": ["src/equations/ideal_gas_mix/FlameMasterReactor.cpp: SetMassFractions"]}
{"id": "C126", "title": "Setting the energy or the enthalpy of the reactor finds the temperature", "statement": "If the heat capacity and the secant slopes of the energy curve belong together (a relative distance q < 1), SetInternalEnergy and SetEnthalpy end without an exception within the allowed number of iterations and the temperature they leave is within q/(1-q) of the tolerance of the wanted one, or its energy error is below the tolerance for energies; the array versions, with and without mask, end likewise for all lanes at once; a temperature which is further away than the steps allow is reported by an exception.", "quantifier": "every energy curve, target, tolerance and start, every number of lanes and mask", "why_tests_cant": "whether a damped Newton iteration with limited steps and a relaxed stopping test ends near the root depends on the whole curve", "anchors": ["src/equations/ideal_gas_mix/FlameMasterReactor.cpp: setEnergiesHOrU, SetInternalEnergy, SetEnthalpy, SetInternalEnergyArray"]}
{"id": "C127", "title": "With the hydrogen tables energy and temperature are inverse to each other", "statement": "For every mixture of the Burke 2012 species and every temperature from 300 K to 2500 K the reactor which is given the internal energy of this temperature, starting at 300 K, ends within half a millikelvin of this temperature.", "quantifier": "every composition and every temperature of the range outside one kelvin around the seam of the tables", "why_tests_cant": "the iteration must end for all mixtures; the margins are inequalities for polynomials and for mixtures of them", "anchors": ["src/equations/ideal_gas_mix/FlameMasterReactor.cpp: SetInternalEnergy", "src/equations/ideal_gas_mix/mechanism/Burke2012.cpp: ComputeThermoData"]}
{"id": "C128", "title": "Completing a state of the ideal gas mixture keeps what is conserved and has no memory", "statement": "Whenever CompleteFromCons returns, density and momentum are exactly the given ones and the state is that of a mixture (equation of state, heat capacities, sound speed); partial densities that are non-negative and sum to the density are kept exactly; the result does not depend on earlier uses of the reactor; with the hydrogen tables the conservative variables of every mixture from 300 K to 2500 K are completed without an exception, with all assertions met, the temperature within half a millikelvin and the energy within 17 J/kg; the array version with mask does so in all masked lanes and writes zero to all others.", "quantifier": "every mechanism, reactor history, density, velocity, composition and temperature of the range, every number of lanes and mask", "why_tests_cant": "one reactor object serves all cells; a result that depends on the cell before is not found by tests of single states", "anchors": ["src/equations/IdealGasMix.cpp: CompleteFromCons, CompleteFromReactor", "include/fub/equations/IdealGasMix.hpp: KineticEnergy"]}
{"id": "C129", "title": "Fluxes, rotations and reflections of the ideal gas mixture are those of the multi-species Euler equations", "statement": "All versions of the flux are the Euler flux for every state of positive density, masked-out lanes have none, the species fluxes add up to the mass flux; rotating, evaluating and rotating back gives the flux through the inclined face; rotation and completion commute; reflection at a unit normal negates the normal momentum and keeps all else; VarNames lists one name per component.", "quantifier": "every state, dimension, direction, orthogonal matrix, unit normal and mechanism", "why_tests_cant": "identities for all states and all orthogonal matrices", "anchors": ["src/equations/IdealGasMix.cpp: Flux, Rotate, Reflect", "include/fub/equations/IdealGasMix.hpp: VarNames"]}
{"id": "C130", "title": "The kinetic source term advances each cell on its own and keeps mass, momentum and energy", "statement": "Although one reactor serves all cells of a patch, the new state of a cell depends on its old state alone; density and momentum are kept exactly; if the ODE solver returns a state with the mass and internal energy of the cell, the cell has its total energy and its species add up to the density.", "quantifier": "every mechanism, every list of cells in every order, every earlier history of the reactor and every behaviour of the ODE solver", "why_tests_cant": "dependence on neighbours shows only for particular orders of cells", "anchors": ["src/equations/ideal_gas_mix/KineticSourceTerm.cpp: AdvanceLevel"]}
{"id": "C131", "title": "The ODE solver integrates the whole interval or throws", "statement": "Integrate returns normally only with the solution at t0 + dt; each failure code of the kernel throws its exception.", "quantifier": "every behaviour of the Fortran kernel, every system, start and length of the interval", "why_tests_cant": "failure paths of the kernel are not reached in tests", "anchors": ["src/ode_solver/RadauSolver.cpp: integrate"]}
{"id": "C132", "title": "Copies and assignments of a reactor behave like the original", "statement": "A copied, moved or assigned reactor has the mechanism, the scalar and array state and the solver parameters of its source.", "quantifier": "every pair of reactors", "why_tests_cant": "stale members show only when the lanes are used at the temperature the target had before", "anchors": ["src/equations/ideal_gas_mix/FlameMasterReactor.cpp: FlameMasterReactor, operator=", "include/fub/ode_solver/RadauSolver.hpp: clone"]}
{"id": "C133", "title": "Every line of a log message is attributed, blacklisted channels are silent and old logs are kept", "statement": "Every line of a log message is written with the time stamp, channel, severity, time and level of its record, and the message can be read back; a record reaches the log file exactly if its channel is not in the blacklist, in whatever order the blacklist is given; the console shows severity info and above; a rank logs exactly if it is listed; starting a run moves an existing log to the smallest unused number and destroys no file.", "quantifier": "every message, record, blacklist, list of ranks and content of the file system", "why_tests_cant": "all messages and all contents of the file system; a bisection on a list that is not sorted is right for many lists", "anchors": ["src/ext/Log.cpp: FormatLogs_, InitializeLogging"]}
{"id": "C134", "title": "Values per thread do not depend on the schedule", "statement": "In a parallel loop that changes a value per thread, the value of each thread depends only on the loop bodies this thread executed; the accumulated sum and the minimum over all threads are those of a sequential loop for every distribution of the bodies to threads and every order; the loop is defined exactly if each thread number is below the number of threads at construction.", "quantifier": "every number of threads, every schedule of loop bodies, every commutative monoid and linear order", "why_tests_cant": "schedules cannot be enumerated by tests", "anchors": ["include/fub/ext/omp.hpp: OmpLocal, Accumulate, Min", "include/fub/AMReX/ForEachFab.hpp: ForEachFab"]}
{"id": "C135", "title": "The mean value in a box is the mean over its cells", "statement": "GetInnerBox returns the cells of the given number of layers at the given side; GetMeanValueInBox returns the arithmetic mean of the component over the cells of the box for every decomposition into patches, tiles, threads and ranks.", "quantifier": "every box, side, direction and width; every decomposition, ghost cell width and schedule", "why_tests_cant": "decompositions with ghost cells and tiles are not covered by tests of one patch", "anchors": ["src/AMReX/MultiFabUtilities.cpp: GetInnerBox, GetMeanValueInBox", "include/fub/AMReX/boundary_condition/GenericPressureValveBoundary.hpp: FillBoundary"]}
{"id": "C136", "title": "Initial data from a one dimensional solution are the data of the file", "statement": "The cells are filled from the rows and columns of the dataset; a cell with free volume gets a gas state with density and pressure between the bounds of the file and velocity along the first axis only, other cells keep theirs; the value of a cell is the mean of the values at the positions inside of it.", "quantifier": "every dataset with sorted positions, every cell and every state of the array before", "why_tests_cant": "index errors of one show only for particular positions of the data relative to the grid", "anchors": ["src/AMReX/cutcell/initial_data/InterpolateFrom1d.cpp: InterpolateFrom1d, InitializeData"]}
{"id": "C137", "title": "Options are what the user wrote and defaults are used exactly for what the user did not write", "statement": "A default is used exactly if the option is missing, a value of the wrong type is an error; a section has the entries of its dictionary, a missing section is empty, a section that is no dictionary with string keys is an error; the options of a script are its global variables without those beginning with two underscores; the command line gives options exactly if it is valid, the script runs and help is not wanted.", "quantifier": "every map of options, name, type of value, script and command line", "why_tests_cant": "all maps, scripts and histories of scripts", "anchors": ["src/ext/ProgramOptions.cpp: GetOptionOr, ToMap, ParsePythonScript, ParseCommandLine, GetOptions", "include/fub/ext/ProgramOptions.hpp: GetOptionOr"]}
{"id": "C138", "title": "Signal velocities of the ideal gas mixture enclose the waves of both sides", "statement": "The two signal velocities of the ideal gas mixture are at most and at least the slowest and fastest acoustic wave of the two states, are exchanged with opposite sign when the states are mirrored, and for equal states are the acoustic waves of that state; scalar, array and masked version agree.", "quantifier": "every two states with positive density, every direction, number of dimensions, species and lane mask", "why_tests_cant": "all states; the versions differ only in a factor that a test of one version does not see", "anchors": ["src/equations/ideal_gas_mix/EinfeldtSignalVelocities.hpp: EinfeldtSignalVelocities"]}
{"id": "C139", "title": "The primitive MUSCL-Hancock method of the ideal gas mixture is consistent, predicts by the Euler equations and keeps mass fractions in bounds", "statement": "In a uniform flow the flux is the flux of the Euler equations; the predictor moves pressure, velocity, temperature and mass fractions by half a time step of the Euler equations; the states at the face are states of the mixture with the reconstructed values; mass fractions stay between those of the neighbours and sum to one; a stagnant gas of constant pressure stays at rest; closed faces get no flux.", "quantifier": "every four states of the mixture, mechanism, time step, direction, species, face and volume fractions", "why_tests_cant": "all states and all histories of the reactor; a wrong sign in one version needs a temperature gradient in the array version", "anchors": ["src/equations/ideal_gas_mix/MusclHancockPrimMethod.hpp: ComputeNumericFlux, Reconstruct, ApplyLimiter, ToPrim, FromPrim"]}
{"id": "C140", "title": "The characteristic MUSCL-Hancock method of the ideal gas mixture is consistent and predicts by the Euler equations", "statement": "In a uniform flow the flux is the flux of the Euler equations; the states at the face are states of the mixture with the reconstructed density, pressure and velocity; the predictor moves them by half a time step of the Euler equations; mass fractions on the upwind side stay between those of the neighbours.", "quantifier": "every four states of the mixture, mechanism, limiter, time step, direction and number of lanes", "why_tests_cant": "all states; a wrong fraction of the time step only lowers the order of convergence", "anchors": ["src/equations/ideal_gas_mix/MusclHancockCharacteristicMethod.hpp: ComputeNumericFlux, Reconstruct, DoTimeStep"]}
{"id": "C141", "title": "The result on a level does not depend on its decomposition into patches and tiles", "statement": "If the ghost cells of a patch hold the states of the level when a step begins, then after all split steps of this step, made on the patch alone and in tiles, every cell of the patch has the state it gets when the split steps are made on the whole level at once. With the default numbers of ghost cells this holds for all methods with up to two cells on each side of a face and each direction stepped at most twice. No cell outside the memory of the patch is read, and no flux of an earlier step is used.", "quantifier": "every patch, number of dimensions, tiling and order of tiles, stencil width, numbers of ghost cells, list of split steps, numerical method, states and previous content of the flux arrays", "why_tests_cant": "needs all decompositions, tilings and thread counts; a missing ghost cell only shows as a small difference at patch borders", "anchors": ["include/fub/AMReX/IntegratorContext.hpp: IntegratorContextOptions", "src/AMReX/IntegratorContext.cpp: ResetHierarchyConfiguration", "include/fub/AMReX/ViewFArrayBox.hpp: GetCellsAndFacesInStencilRange", "src/AMReX/TimeIntegrator.cpp: UpdateConservatively"]}
{"id": "C142", "title": "Boundary conditions on a mesh with embedded boundary fill exactly the open ghost cells", "statement": "A boundary condition on a mesh with an embedded boundary gives every ghost cell of its side, or of its section of the side, which is open and whose image in the domain is open, the ghost state of that image; a ghost cell for which one of them is closed gets zeros or keeps its value; no other cell is touched. This holds on every level.", "quantifier": "every dimension, domain, patch, tiling, ghost width, side, section, embedded boundary, ghost state function, old data and level", "why_tests_cant": "all geometries of embedded boundaries and all decompositions into patches and tiles", "anchors": ["include/fub/AMReX/cutcell/boundary_condition/ReflectiveBoundary.hpp: ReflectiveBoundary", "src/AMReX/cutcell/boundary_condition/PressureOutflowBoundary.cpp: PressureOutflowBoundary", "include/fub/AMReX/cutcell/boundary_condition/ConstantBoundary.hpp: ConstantBoundary", "include/fub/AMReX/cutcell/boundary_condition/ReflectiveBoundary2.hpp: ReflectiveBoundary2", "include/fub/AMReX/cutcell/boundary_condition/TurbineMassflowBoundary.hpp: TurbineMassflowBoundary", "src/AMReX/cutcell/boundary_condition/IsentropicPressureBoundary.cpp: IsentropicPressureBoundary"]}
{"id": "C143", "title": "The isentropic pressure boundaries of the ideal gas mixture expand along an isentrope and keep the total enthalpy", "statement": "The ghost state is the complete state of a mixture of the same composition with the outer pressure and the same entropy as the inner state; its total enthalpy is that of the inner state and the direction of the flow is kept.", "quantifier": "every mechanism, state of the mixture, outer pressure, history of the reactor and behaviour of the ODE solver", "why_tests_cant": "all states and all histories of the reactor; the result of the ODE solver is not a closed formula", "anchors": ["src/equations/ideal_gas_mix/FlameMasterReactor.cpp: SetPressureIsentropic", "src/AMReX/boundary_condition/IsentropicPressureBoundary.cpp: IsentropicExpansionWithoutDissipation", "src/AMReX/cutcell/boundary_condition/IsentropicPressureBoundary.cpp: IsentropicExpansionWithoutDissipation_"]}
{"id": "C144", "title": "The nodal operator for linear velocities is symmetric, has only constants in its kernel and is consistent", "statement": "Applying the operator gives minus the gradient of a positive definite energy plus the diagonal term; on a periodic grid it is symmetric, without diagonal term its kernel consists of the constants (no checkerboard) and the equation is solvable exactly for right-hand sides with sum zero, with a negative diagonal term it has exactly one solution; on quadratic polynomials it is the exact Laplacian; the smoothers of the finest level divide by its diagonal and do not change exactly the solutions.", "quantifier": "all periodic grids, positive coefficient fields, masks, nodal fields, right-hand sides and boxes", "why_tests_cant": "solvability and the kernel are statements about all fields on all grids", "anchors": ["src/AMReX/MLMG/MLNodeHelmDualLinVel_2D_K.cpp: mlndhelm_adotx_aa", "src/AMReX/MLMG/MLNodeHelmDualLinVel_2D_K.cpp: mlndhelm_jacobi_aa", "src/AMReX/MLMG/MLNodeHelmDualLinVel_2D_K.cpp: mlndhelm_gauss_seidel_aa", "src/AMReX/MLMG/MLNodeHelmDualLinVel.cpp: MLNodeHelmDualLinVel"]}
{"id": "C145", "title": "The kernels of the nodal operator for linear velocities belong to one operator", "statement": "The velocity corrected with the solution of the pressure equation is divergence free; the operator, the smoother and the normalisation of the coarse multigrid levels have the same diagonal and annihilate constants; the residual between two levels is that of the operator.", "quantifier": "all coefficient fields, masks, nodal fields and grids", "why_tests_cant": "an identity between hand-written stencils for all fields", "anchors": ["src/AMReX/MLMG/MLNodeHelmDualLinVel_2D_K.cpp: mlndhelm_mknewu", "src/AMReX/MLMG/MLNodeHelmDualLinVel_2D_K.cpp: mlndhelm_adotx_ha", "src/AMReX/MLMG/MLNodeHelmDualLinVel_2D_K.cpp: mlndhelm_normalize_ha", "src/AMReX/MLMG/MLNodeHelmDualLinVel_2D_K.cpp: mlndhelm_res_cf_contrib", "src/AMReX/MLMG/MLNodeHelmDualCstVel_2D_K.cpp: mlndhelm_res_cf_contrib"]}
{"id": "C146", "title": "Regridding and initialisation conserve", "statement": "If every coarse cell under finer grids holds the mean of its fine cells, then the total amount of every conserved quantity over the visible cells equals that of the coarsest level; a regrid which remakes, creates (with ratio two) and removes levels keeps this relation on all levels and does not change the total; the initialisation establishes it without changing the total of the visible cells.", "quantifier": "every number of levels, all nested old and new grids, all data, all sequences of level actions", "why_tests_cant": "the number of levels and the shapes of the grids are unbounded", "anchors": ["src/AMReX/GriddingAlgorithm.cpp: MakeNewLevelFromCoarse", "src/AMReX/GriddingAlgorithm.cpp: RemakeLevel", "src/AMReX/GriddingAlgorithm.cpp: InitializeHierarchy", "src/AMReX/GriddingAlgorithm.cpp: FillMultiFabFromLevel"]}
{"id": "C147", "title": "Every cell holds a complete state after a regrid", "statement": "Cells that belong to the old and the new grids keep all components; new cells get a complete state (pressure, temperature and speed of sound that fit to the conserved components), also on newly created levels and in the cells averaged by the initialisation.", "quantifier": "all hierarchies, grids, data and level actions", "why_tests_cant": "depends on the history of grids and on the contents of uninitialised memory", "anchors": ["src/AMReX/GriddingAlgorithm.cpp: MakeNewLevelFromCoarse", "src/AMReX/GriddingAlgorithm.cpp: RemakeLevel", "src/AMReX/GriddingAlgorithm.cpp: InitializeHierarchy"]}
{"id": "C148", "title": "Every block of a multi-block run is advanced like in a run of its own", "statement": "After a successful step of all blocks, the part of a block that the coupling does not touch (its clocks and its levels, or everything if the block has no connections) is what a step of this block alone with the same size yields; the clocks of all blocks agree; the step size of the run is not larger than that of any block with the level; the reported changed level is not larger than that of any block; every tube is advanced by its own source term.", "quantifier": "any number of blocks, levels and refinement ratios, any regridding of the blocks, any coupling, all data", "why_tests_cant": "the interleaving of the recursions of blocks with different numbers of levels is unbounded", "anchors": ["src/AMReX/multi_block/MultiBlockIntegratorContext2.cpp: LevelExists", "src/AMReX/multi_block/MultiBlockIntegratorContext2.cpp: PreAdvanceLevel", "src/AMReX/multi_block/MultiBlockIntegratorContext2.cpp: PostAdvanceLevel", "src/AMReX/multi_block/MultiBlockIntegratorContext2.cpp: ComputeStableDt", "src/AMReX/multi_block/MultiBlockIntegratorContext2.cpp: CompleteFromCons", "include/fub/AMReX/multi_block/MultiBlockSourceTerm.hpp: AdvanceLevel", "src/AMReX/multi_block/MultiBlockIgniteDetonation.cpp: AdvanceLevel"]}
{"id": "C149", "title": "Blocks may have different numbers of levels", "statement": "A step of all blocks never accesses a level that a block does not have, and after it the stored times of all levels of all blocks are those of the run.", "quantifier": "any number of blocks with any levels, any regridding", "why_tests_cant": "depends on the levels that exist at each sub-step", "anchors": ["src/AMReX/multi_block/MultiBlockIntegratorContext2.cpp: CopyScratchToData", "src/AMReX/multi_block/MultiBlockIntegratorContext2.cpp: GetTimePoint", "src/AMReX/multi_block/MultiBlockIntegratorContext2.cpp: GetCycles", "src/AMReX/multi_block/MultiBlockIntegratorContext2.cpp: PostAdvanceHierarchy"]}
{"id": "C150", "title": "A checkpoint is read back exactly or not at all, and a restarted run continues the interrupted one", "statement": "Reading a checkpoint gives the hierarchy that was written: levels, time points (to the last bit, although they are printed as decimals), cycles, box arrays and cell data, for one grid and for several blocks. If the writer is interrupted at any point, in any order of completion of the files by its processes, reading fails or gives the whole hierarchy; it never gives a part of it. The states of pressure valves and the ignition times are restored. As long as regridding finds nothing to change, an observer sees the same time points, step sizes, errors and outputs in the restarted run as in the continued one, for ever.", "quantifier": "all hierarchies with any number of levels and time points in binary64, all rounding rules for ties, all crash points and orders of file completion, all runs of any length", "why_tests_cant": "crash points, interleavings of ranks, all 2^64 time points, runs of any length", "anchors": ["src/AMReX/PatchHierarchy.cpp: WriteCheckpointFile", "src/AMReX/PatchHierarchy.cpp: ReadCheckpointFile", "src/AMReX/cutcell/PatchHierarchy.cpp: ReadCheckpointFile", "include/fub/AMReX/boundary_condition/PressureValveBoundary.hpp: serialize", "include/fub/AMReX/IgniteDetonation.hpp: serialize", "src/AMReX/IntegratorContext.cpp: PreAdvanceHierarchy"]}
{"id": "C151", "title": "A checkpoint contains everything a run needs, and wrong checkpoints are rejected", "statement": "Reading a checkpoint restores node and face data, too; a checkpoint for other options (numbers of levels, refinement ratio) is rejected; a checkpoint of several blocks in a directory with an older one is all new or all old at any crash point; writing a checkpoint does not change the running program; the first step after a restart regrids like that of the continued run.", "quantifier": "all hierarchies, options, crash points and regrid decisions", "why_tests_cant": "depends on crash points and on the options of a later run", "anchors": ["src/AMReX/PatchHierarchy.cpp: WriteCheckpointFile", "src/AMReX/PatchHierarchy.cpp: ReadCheckpointFile", "src/AMReX/cutcell/PatchHierarchy.cpp: ReadCheckpointFile", "src/AMReX/GriddingAlgorithm.cpp: GriddingAlgorithm", "include/fub/Duration.hpp: serialize", "src/AMReX/IntegratorContext.cpp: PreAdvanceLevel"]}
{"id": "C152", "title": "The debug output writes everything that was saved, once and with its own name and boxes", "statement": "Whatever fields of cells, nodes and faces were saved in a snapshot, flushing it writes every component of every cell field once, with its name and its boxes and values on all levels; adds the cell averages of the node and face fields; writes every node and face field itself next to exactly one plot file, the one with its cells; and puts two cell fields into one plot file if and only if their boxes are equal. Saving keeps what was saved before and stores the chosen components. Adding a snapshot always ends, and its directory differs from that of every other one. Averages of faces are exact for linear functions.", "quantifier": "all lists of saved fields with any names, boxes, numbers of levels and components; all histories of snapshot names", "why_tests_cant": "ranges over all combinations of fields, box arrays and names", "anchors": ["src/AMReX/output/DebugOutput.cpp: Partitions_", "src/AMReX/output/DebugOutput.cpp: GatherFields", "src/AMReX/output/DebugOutput.cpp: SaveData", "src/AMReX/output/DebugOutput.cpp: MakeUniqueComponentNames", "src/AMReX/output/DebugOutput.cpp: AddSnapshot", "src/AMReX/output/DebugOutput.cpp: FlushData", "src/AMReX/output/DebugOutput.cpp: AverageFaceToCell"]}
{"id": "C153", "title": "Names of components and directories of snapshots in the debug output are unique", "statement": "After flushing, all components of a snapshot have different names, every name is the given one or the given one with a number, and a name that was given only once is unchanged. All snapshots of a cycle are written to different directories. Fields with different geometries are written with their own ones.", "quantifier": "all lists of names of components, all histories of snapshot names", "why_tests_cant": "the collisions need particular combinations of names or many snapshots", "anchors": ["src/AMReX/output/DebugOutput.cpp: MakeUniqueComponentNames", "src/AMReX/output/DebugOutput.cpp: AddSnapshot", "src/AMReX/output/DebugOutput.cpp: GatherFields", "include/fub/AMReX/cutcell/FluxMethod.hpp: ComputeNumericFluxes"]}
{"id": "C154", "title": "States are loaded and stored without mixing cells, variables or components", "statement": "The view of the states of a Fab gives access to component k of the Fab at the same cell as the k-th component of the variables, however many scalar and vector variables there are. Storing a state and loading it gives it back and changes no other cell and no other data. Sub-views show the same cells. Pointers to states point to the components of the cell they were advanced to. Lane l of an array of states is the state of the cell l cells further; loading or storing n lanes touches exactly n cells and leaves the other lanes and cells alone.", "quantifier": "all ranks, boxes, numbers and depths of variables, cells, sub-boxes, offsets, strides, numbers of lanes, memories and states", "why_tests_cant": "ranges over all layouts of variables and all boxes; a mistake shows only for particular depths and extents", "anchors": ["include/fub/AMReX/ViewFArrayBox.hpp: MakeView", "include/fub/State.hpp: Load", "include/fub/State.hpp: Store", "include/fub/State.hpp: AtComponent", "include/fub/State.hpp: Begin", "include/fub/State.hpp: Advance", "include/fub/StateArray.hpp: LoadN", "include/fub/StateArray.hpp: StoreN", "include/fub/Equation.hpp: Subview"]}
{"id": "C155", "title": "Views and rows of states are right for every equation", "statement": "The views of an equation with fewer dimensions than the mesh address the right components for every Fab, and the loops over a row visit exactly the cells of the row for every equation.", "quantifier": "all depths of variables, ranks, boxes and rows", "why_tests_cant": "no equation of the library with such variables exists, or the Fab has one cell in the other directions", "anchors": ["include/fub/AMReX/ViewFArrayBox.hpp: MakeViewImpl", "include/fub/StateRow.hpp: Row", "include/fub/StateRow.hpp: Begin", "include/fub/StateRow.hpp: End"]}
{"id": "C156", "title": "The stabilised flux at an embedded boundary depends on this step only and is the same in all patches", "statement": "With the cut-cell method that reconstructs the states on both sides of a face: the stabilised flux of a face whose neighbouring faces also belong to the patch data is the mean of the fluxes computed in this step for its unshielded part and its two singly shielded parts, weighted by their shares of the face. It does not depend on what the arrays held before, on the order in which the tiles of the patch are visited, or on the patch it is computed in: two patches that both hold the face and one more face on either side agree about it.", "quantifier": "all face boxes, tilings, visiting orders, schedules of threads with uninterrupted combinations, open fractions, fluxes and previous contents of the arrays", "why_tests_cant": "depends on the history of the arrays, on the tiling and on the schedule", "anchors": ["include/fub/cutcell_method/MyStabilisation.hpp: ComputeCutCellFluxes", "src/cutcell_method/MyStabilisation.cpp: MyStab_ComputeStableFluxComponents", "include/fub/AMReX/cutcell/MyFluxMethod.hpp: ComputeNumericFluxes", "include/fub/AMReX/ForEachFab.hpp: ForEachFab"]}
{"id": "C157", "title": "The stabilised fluxes of a patch are right for every schedule of the threads and for every number of additional faces", "statement": "The stabilised fluxes do not depend on how the threads that work on the tiles of a patch are scheduled, and the two patches at an interface use the same flux for the faces they share, for every number of ghost faces the user selects.", "quantifier": "all schedules, tilings and numbers of ghost faces", "why_tests_cant": "the wrong schedules are rare and a run with one thread shows nothing", "anchors": ["include/fub/cutcell_method/MyStabilisation.hpp: ComputeCutCellFluxes", "src/cutcell_method/MyStabilisation.cpp: ComputeStableFluxes_Row", "include/fub/AMReX/cutcell/MyFluxMethod.hpp: ComputeNumericFluxes"]}
{"id": "C158", "title": "The polygons and integration points at an embedded boundary describe the geometry", "statement": "For every cell the polygon computed from the geometry data is exactly the part of the cell in the fluid: all of it, nothing, or the part in front of the wall. At a wall whose normal and length close the open surface of its cell, the polygon behind the wall is the mirror image of the region that reaches one cell width behind the wall, the inner polygon is the region that reaches one cell width in front of it, and both have the same area, the blocked part of the cell face times the cell width. The centroid of a polygon is its centre of mass, does not depend on the vertex at which the polygon starts and lies inside of the polygon. The integration points that are stored in the cell data are read back unchanged.", "quantifier": "all cell sizes, walls, both directions, all polygons and all numbers of integration points", "why_tests_cant": "holds for every position and every angle of the wall, which no list of geometries covers", "anchors": ["src/AMReX/cutcell/PatchHierarchy.cpp: GetPolygon", "src/AMReX/cutcell/PatchHierarchy.cpp: GetHGridPolygonAtBoundary", "src/AMReX/cutcell/PatchHierarchy.cpp: GetHGridPolygonInner", "src/AMReX/cutcell/PatchHierarchy.cpp: Centroid", "src/CutCellData.cpp: GetHGridIntegrationPoints"]}
{"id": "C159", "title": "The integration points of the mirror region cover all of it", "statement": "The mirror region of a wall is a part of the cell and its direct neighbours, so that the integration points, which are looked for there, cover all of it.", "quantifier": "all cell sizes and walls", "why_tests_cant": "needs walls near a cell face with a slight slope", "anchors": ["src/AMReX/cutcell/PatchHierarchy.cpp: ComputeIntegrationPoints", "src/AMReX/cutcell/PatchHierarchy.cpp: GetHGridPolygonAtBoundary"]}
{"id": "C160", "title": "The finest level of a plenum sees the tubes through its walls", "statement": "In a step of a coupled simulation, with or without subcycling, every computation of fluxes on the finest level of a plenum uses in the wall cells of a connection the state of the tube and in every other wall cell the wall, both computed from the gas at the begin of the step of that level, however the hierarchy is regridded. A cell that is not part of a connection is never treated as one.", "quantifier": "all numbers of levels and refinement ratios, all regrids, all evolutions of the gas, failing and succeeding steps, every computation of fluxes", "why_tests_cant": "a property of every order of calls on every hierarchy of levels", "anchors": ["src/AMReX/multi_block/MultiBlockIntegratorContext2.cpp: PreAdvanceLevel", "src/AMReX/cutcell/IntegratorContext.cpp: PreAdvanceLevel, ResetHierarchyConfiguration", "include/fub/AMReX/cutcell/FluxMethod.hpp: PreAdvanceHierarchy", "include/fub/cutcell_method/KbnStabilisation.hpp: PreAdvanceHierarchy, ComputeBoundaryFlux"]}
{"id": "C161", "title": "The coarser levels of a plenum see the tubes at the place of the connection", "statement": "Every computation of fluxes on every level of a plenum uses the state of the tube in the wall cells of a connection, and these cells lie in the region of the connection.", "quantifier": "all numbers of levels, all computations of fluxes, all boxes of connections", "why_tests_cant": "needs a coupled simulation with several levels and a sloped connection", "anchors": ["src/AMReX/multi_block/MultiBlockIntegratorContext2.cpp: PreAdvanceLevel", "src/AMReX/multi_block/MultiBlockBoundary2.cpp: MultiBlockBoundary2"]}
{"id": "C162", "title": "Averaging to a coarser level counts the gas only", "statement": "On a mesh with embedded walls a coarse cell under finer grids holds, after the initialisation and after every coarsening during a run, the mean of the conserved quantities over the gas in its fine cells; values of cells inside the wall have no influence and the mean lies between the values of the open fine cells.", "quantifier": "all volume fractions, all nested grids, all data, any number of levels and dimensions", "why_tests_cant": "depends on the geometry of the wall within the refined cells, on the number of levels and on values inside the wall", "anchors": ["src/AMReX/cutcell/GriddingAlgorithm.cpp: InitializeHierarchy", "src/AMReX/cutcell/IntegratorContext.cpp: CoarsenConservatively", "src/AMReX/cutcell/IntegratorContext.cpp: ResetHierarchyConfiguration"]}
{"id": "C163", "title": "Regridding with embedded walls keeps the amount of gas", "statement": "If the covered cells hold the means over the gas in their fine cells, then they do so after every regrid, the amount of gas in the visible cells is that of the coarsest level, and a regrid does not change it.", "quantifier": "all walls, all nested old and new grids, all data, all sequences of level actions", "why_tests_cant": "the shapes of walls and grids and the number of levels are unbounded", "anchors": ["src/AMReX/cutcell/GriddingAlgorithm.cpp: RemakeLevel", "src/AMReX/cutcell/GriddingAlgorithm.cpp: MakeNewLevelFromCoarse", "include/fub/AMReX/cutcell/IndexSpace.hpp: MakeIndexSpaces"]}
{"id": "C164", "title": "Leaving out grids inside of walls loses no gas", "statement": "With the option to remove covered grids the base grids are exactly those with an open cell, each once, whatever the assignment of grids to processes is; every open cell is in as many grids as before and the amount of gas on the level is the same for all data.", "quantifier": "all lists of grids, all numbers of processes and assignments, all volume fractions and data", "why_tests_cant": "the number of grids and processes is unbounded", "anchors": ["src/AMReX/cutcell/GriddingAlgorithm.cpp: PostProcessBaseGrids"]}
{"id": "C165", "title": "The file of the control states can be read back", "statement": "After any number of runs of the program with the same path for the control output, ended regularly or by a crash at any point, every output is found: row t of the column whose name is in the list of fields is the quantity of that name of the control state at output t of the run, with its time and cycle; the newest run is in the file of the option and run i in the file with number i; a crash only affects the row of the interrupted output.", "quantifier": "all histories of outputs and restarts, all control states, all crash points between the datasets, all file systems at the start", "why_tests_cant": "the number of outputs, restarts and the points of crashes are unbounded", "anchors": ["src/equations/perfect_gas_mix/PlenaControlOutput.cpp: GetFieldMap, ControlOutput::ControlOutput, CreateHdf5Database, WriteHdf5Database, operator()"]}
{"id": "C166", "title": "A refined tube with a varying cross section conserves mass", "statement": "A time step of a tube with a varying cross section on refined grids changes the amount of a conserved variable in the tube (value times cell length times mean area) exactly by the inflow through the ends of the tube; averaging to a coarser level keeps the amount.", "quantifier": "all nested hierarchies, refinement ratios, area functions, flux methods, splittings, initial states and step sizes", "why_tests_cant": "the number of levels, cells and subcycles is unbounded", "anchors": ["include/fub/AMReX/AxialTimeIntegrator.hpp: UpdateConservatively", "src/AMReX/IntegratorContext.cpp: AccumulateCoarseFineFluxes, ApplyFluxCorrection, CoarsenConservatively"]}
{"id": "C167", "title": "The flux method of a program is the one its options name", "statement": "A program runs with the second order flux method made of the limiter, the variables and the Riemann solver that its options name (MinMod, Characteristics and HLLEM_Larrouturou if they are left out), with the axial time integrator exactly if an area function is given; any other text or type of value of these options is an error; embedded boundaries get the same method and the same Riemann solver at the wall.", "quantifier": "all option dictionaries, all limiters, variables and solvers, any nesting of the method types", "why_tests_cant": "the options are arbitrary dictionaries with arbitrary texts and values", "anchors": ["include/fub/AMReX/FluxMethodFactory.hpp: GetFluxMethod, RebindLimiterTo, RebindBaseMethod", "include/fub/AMReX/cutcell/FluxMethodFactory.hpp: GetCutCellMethod"]}
{"id": "C168", "title": "The flux sweep of a tube stores flux and pressure of every face", "statement": "In a tube with a varying cross section the sweep over a patch stores at every face the numeric flux and the interface pressure the flux method computes from the cells around this face and changes nothing else, for every chunk width and remainder; the pressures always have the layout of the fluxes, whatever grids were seen before; the step that reads them changes the content of a cell by these fluxes and its momentum by these pressures on the wall.", "quantifier": "all flux methods, stencil widths, vector widths, non-empty boxes of faces, memory contents and histories of grids", "why_tests_cant": "row lengths, vector widths and the history of the grids are unbounded", "anchors": ["include/fub/AMReX/AxialFluxMethodAdapter.hpp: ComputeNumericFluxes, AllocatePressureIfNeeded", "include/fub/AMReX/AxialTimeIntegrator.hpp: UpdateConservatively"]}
{"id": "C169", "title": "SAMRAI: the time step reaches the hierarchy", "statement": "A user of the SAMRAI backend relies on the hierarchy holding the advanced solution after a time step. The code: copying scratch data to the hierarchy stores the step if and only if there was nothing to store, and no sequence of calls of the integrator context ever changes a variable of the hierarchy.", "quantifier": "all sequences of calls, numeric methods, levels, data and numbers of variables", "why_tests_cant": "every call sequence and content", "anchors": ["src/SAMRAI/IntegratorContext.cpp: CopyScratchToData, CopyDataToScratch"]}
{"id": "C170", "title": "SAMRAI: every variable is filled from its own data", "statement": "Filling the ghost layer of a level loads each variable from the hierarchy variable of the same name. The code: every variable is loaded from the first one, so the fill is right if and only if the equation has a single variable.", "quantifier": "all numbers of variables, levels, data and fill routines", "why_tests_cant": "every number of variables and content", "anchors": ["src/SAMRAI/IntegratorContext.cpp: ResetHierarchyConfiguration, FillGhostLayerSingleLevel, FillGhostLayerTwoLevels"]}
{"id": "C171", "title": "SAMRAI: conservation across levels", "statement": "After coarse and fine steps the coarse cells next to finer ones are corrected by the difference of the fluxes. The code: resetting, accumulating and applying the coarse-fine fluxes leaves every cell of every level as it is.", "quantifier": "all levels, fluxes, scalings, directions and data", "why_tests_cant": "all level configurations and data", "anchors": ["src/SAMRAI/IntegratorContext.cpp: ResetCoarseFineFluxes, AccumulateCoarseFineFluxes, ApplyFluxCorrection"]}
{"id": "C172", "title": "SAMRAI: time of a level", "statement": "The time of a level is the time the simulation started from plus the sum of the time steps taken; the context and the hierarchy agree about it. The code: true from time zero; a context created later starts again at zero; regridding of the coarsest level reads the time of level -1.", "quantifier": "all sequences of time steps, levels and starting times", "why_tests_cant": "unbounded histories", "anchors": ["src/SAMRAI/IntegratorContext.cpp: IntegratorContext, PreAdvanceLevel, PostAdvanceLevel", "src/SAMRAI/GriddingAlgorithm.cpp: RegridAllFinerLevels"]}
{"id": "C173", "title": "SAMRAI: refinement ratio and tags", "statement": "Levels are refined by the ratio given in the options, which is the ratio the time integration uses, and the cells tagged for refinement are exactly those the tagging method selects. The code: tags are right for any number of patches and any previous tags; the ratio of the grids is always two.", "quantifier": "all ratios, levels, numbers of patches, tagging methods and previous tags", "why_tests_cant": "all patch configurations", "anchors": ["src/SAMRAI/GriddingAlgorithm.cpp: GriddingAlgorithm, applyGradientDetector", "src/SAMRAI/tagging_method/ConstantBox.cpp: TagCellsForRefinement", "src/SAMRAI/IntegratorContext.cpp: GetRatioToCoarserLevel"]}
{"id": "C174", "title": "SAMRAI: copies are independent", "statement": "Copies of a gridding algorithm and of an integrator context are independent of the original, and after the gridding algorithm of a context was exchanged the context uses the new one. The code: only the copy constructor of the gridding algorithm is so.", "quantifier": "all objects, addresses and sequences of exchanges", "why_tests_cant": "histories are unbounded", "anchors": ["include/fub/SAMRAI/GriddingAlgorithm.hpp: GriddingAlgorithm", "include/fub/SAMRAI/IntegratorContext.hpp: IntegratorContext", "src/SAMRAI/IntegratorContext.cpp: ResetHierarchyConfiguration"]}
{"id": "C175", "title": "SAMRAI: views address the data of the patch", "statement": "A view of SAMRAI's patch data has the box of the data, its element for a cell and a component is that of the data; a view of too small a rank for the number of components throws.", "quantifier": "all dimensions, boxes, depths and indices", "why_tests_cant": "all array shapes", "anchors": ["include/fub/SAMRAI/ViewPatch.hpp: MakeMdSpan, MakePatchDataView, AsIndexBox"]}
{"id": "C176", "title": "SAMRAI: the conservative update", "statement": "The conservative update adds to every component of every cell time step size over cell width times the difference of its fluxes, and changes nothing else. The code: true for variables with as many components as there are conservative variables in the maximum dimension, except in the outermost ghost layer; a variable with fewer components is written beyond its end; in fewer dimensions nothing is updated.", "quantifier": "all dimensions, boxes, depths, vector widths, fluxes and data", "why_tests_cant": "all array shapes and contents", "anchors": ["src/SAMRAI/HyperbolicTimeIntegrator.cpp: UpdateConservatively"]}
{"id": "C177", "title": "SAMRAI: fluxes are computed on all faces of a patch", "statement": "Fluxes are computed on every face of every cell of a patch and stored within the flux data. The code: on every face but the last in the direction; the stores are within the flux data in two or more dimensions if and only if the ghost width of the fluxes is at least the stencil width.", "quantifier": "all patches, dimensions, directions and stencil widths", "why_tests_cant": "all boxes and widths", "anchors": ["include/fub/SAMRAI/FluxMethodAdapter.hpp: ComputeNumericFluxes", "src/SAMRAI/IntegratorContext.cpp: RegisterVariables"]}
{"id": "C178", "title": "SAMRAI: cell coordinates", "statement": "The coordinates of a cell are those of its centre, whether computed from the patch or from the grid geometry; the domain has as many cells as asked for. A patch with a single cell in a direction is the exception: zero divided by zero.", "quantifier": "all patches, cells, coordinates and cell widths", "why_tests_cant": "all index ranges", "anchors": ["src/SAMRAI/CartesianPatchHierarchy.cpp: CartesianPatchCoordinates", "include/fub/SAMRAI/PatchHierarchy.hpp: GetCellCenter, MakeCartesianGridGeometry"]}
{"id": "C179", "title": "SAMRAI: variables are registered once", "statement": "Registering the variables of an equation gives distinct ids to variables with distinct full names, returns the same ids when repeated at any later time, and refuses a name in use with another depth or dimension.", "quantifier": "all lists of variables, prefixes, contexts, databases and later registrations", "why_tests_cant": "histories of registrations are unbounded", "anchors": ["include/fub/SAMRAI/RegisterVariables.hpp: RegisterVariables, RegisterVariablesHelper", "src/SAMRAI/RegisterVariables.cpp: MakeVariableName"]}
{"id": "C180", "title": "Pressure valve: gas in the ghost cells", "statement": "While the valve is open, every cell below the lower end of the tube contains, at the pressure and velocity of the mass flow boundary, either air at 300 K or the inner gas with hydrogen added to the given equivalence ratio, as the state of the valve says; no other cell changes; overlapping tiles do not matter. The code: true; but replacing the gas at constant pressure and velocity changes the mass flow by the ratio of the densities, and on a level that does not contain the box of the mass flow boundary an assertion fails.", "quantifier": "all mechanisms, mixtures, valve and reactor histories, patches, tilings and ghost widths", "why_tests_cant": "all states of the gas, all histories of the valve, all patch configurations", "anchors": ["src/AMReX/boundary_condition/PressureValveBoundary.cpp: PressureValveBoundary::FillBoundary, ChangeState_", "src/AMReX/boundary_condition/MassflowBoundary.cpp: MassflowBoundary::FillBoundary"]}
{"id": "C181", "title": "Mass flow boundary: state and cells", "statement": "The ghost cells beyond the chosen side get density, composition and temperature of the mean state in the given box, no transversal velocity, and a velocity for which the mass flux through the boundary is the required one, on every level. The code: true on levels whose cells cover the box; the box is not refined, so finer levels take the mean of another region, a partly covered box gives too small a density, and on a level without cells in the box the ghost cells are not filled.", "quantifier": "all mixtures, boxes, tilings, processes, patches and sides", "why_tests_cant": "all states, boxes and patch configurations", "anchors": ["src/AMReX/boundary_condition/MassflowBoundary.cpp: ComputeBoundaryState, MassflowBoundary::FillBoundary", "include/fub/AMReX/AverageState.hpp: AverageState"]}
{"id": "C182", "title": "Cut cells: the stable time step looks at every open face and at no closed one", "statement": "The time step the cut-cell methods return for a level in a direction is one for which no wave at any face of a patch with gas, unless the geometry closes the face, crosses more than one cell; states next to closed faces and covered patches have no influence; and the step is not needlessly small: an open face attains it. The code: true, with two limits: waves from the reflection at the embedded boundary are not considered (a todo in the code), and a patch whose faces are all closed returns the largest double instead of infinity.", "quantifier": "all ranks, boxes, tilings, stencil and vector widths, face fractions and states", "why_tests_cant": "all geometries, states and patch shapes; a slip in the masks or in the chunks shows for particular row lengths only", "anchors": ["include/fub/cutcell_method/MyStabilisation.hpp: MyCutCellMethod::ComputeStableDt", "include/fub/cutcell_method/KbnStabilisation.hpp: KbnCutCellMethod::ComputeStableDt", "include/fub/AMReX/cutcell/MyFluxMethod.hpp: MyFluxMethod::ComputeStableDt", "include/fub/AMReX/cutcell/FluxMethod.hpp: FluxMethod::ComputeStableDt", "include/fub/flux_method/HllMethod.hpp: HllArrayBase::ComputeStableDt"]}
{"id": "C183", "title": "Cut cells: the regular fluxes are those of the face and its cells, covered cells have no influence", "statement": "The flux sweep over a patch with an embedded boundary stores at every face the flux of the method for the face fraction of this face and for volume fractions, states and gradients of the cells around it, whatever the row length, the vector width and the strides, and changes nothing else. With the MUSCL-Hancock method the numbers stored in covered cells have no influence on the flux through an open face: a covered outer cell only switches the slope of its side off. The code: true.", "quantifier": "all ranks 1 to 3, directions, stencil and vector widths, components, strides, geometries and contents of the memory", "why_tests_cant": "all row lengths, memory layouts and geometries; a shifted view or a wrong mask shows for particular ones only", "anchors": ["include/fub/cutcell_method/KbnStabilisation.hpp: KbnCutCellMethod::ComputeRegularFluxes", "include/fub/cutcell_method/MyStabilisation.hpp: MyCutCellMethod::ComputeRegularFluxes", "include/fub/flux_method/MusclHancockMethod2.hpp: MusclHancock2::ComputeNumericFlux"]}
{"id": "C184", "title": "Cut cells: recomputing the complete state treats all cells with gas and none of the solid", "statement": "After the complete states of a level with an embedded boundary have been recomputed, every cell of the level that contains gas has the complete state of its conservative variables, whatever the vector width, the tiling, the kinds of the tiles and the earlier use of the object, and the versions with and without vectors agree there. Cells of the solid keep their content. The code: true of all cells with gas. False of cells of the solid in the vector version: for the perfect gas they are set to zero (and so is a cell with gas whose density is not positive, without an error), and for equations without a function of their own they get a copy of another cell.", "quantifier": "all ranks, tiles, geometries, vector widths, states and earlier contents of the registers", "why_tests_cant": "all row lengths and geometries; the content of the covered cells depends on the history of the kernel object", "anchors": ["include/fub/AMReX/cutcell/Reconstruction.hpp: ReconstructionKernel::CompleteFromCons", "include/fub/AMReX/cutcell/Reconstruction.hpp: Reconstruction::CompleteFromCons", "include/fub/CompleteFromCons.hpp: CompleteFromCons", "src/equations/PerfectGas.cpp: PerfectGas::CompleteFromCons"]}
{"id": "C185", "title": "Walls in the nodal pressure equation", "statement": "On a rectangular domain with any combination of periodic sides, walls, inflows and Dirichlet sides, and for every patch and tile: filling the ghost values mirrors the field at the walls, in corners in both directions, and changes nothing else. The scaling of the right-hand side doubles a node once for each wall it lies on whatever the tiling, and its inverse undoes it. The weights of inner products are a half for each wall and zero for nodes owned elsewhere. Exactly the nodes on Dirichlet sides and at given cells are masked. At every node the divergence of the gradient field of a pressure with zero ghost values is the operator applied to the pressure. In the inner product of the solver the divergence is minus the adjoint of the gradient, the operator is symmetric and satisfies the energy identity, the right-hand side of velocities that vanish beyond walls is compatible when no side is Dirichlet, and with a negative diagonal the solution is unique. The code: true without cross coefficients. False with cross coefficients (Coriolis) at walls: the operator is not conservative there.", "quantifier": "all domains, boundary conditions, patches, tiles, coefficients, masks and fields; the global identities for domains of one patch", "why_tests_cant": "all sizes and all combinations of boundary conditions; the repository only runs periodic cases", "anchors": ["src/AMReX/MLMG/MLNodeHelmDualCstVel_2D_K.cpp: mlndhelm_bc_doit, mlndhelm_set_dot_mask, mlndhelm_set_dirichlet_mask, mlndhelm_set_nodal_mask", "src/AMReX/MLMG/MLNodeHelmDualCstVel_K.cpp: mlndhelm_scale_neumann_bc, mlndhelm_impose_neumann_bc, mlndhelm_fillbc_cc, mlndhelm_applybc", "src/AMReX/MLMG/MLNodeHelmDualCstVel.cpp: compRHS, FillBoundaryCoeff"]}
{"id": "C186", "title": "Ghost cells and wall reference states belong to the data of the step", "statement": "Whenever a refinement level is advanced in time, its ghost cells hold what filling them at that moment would give, and the reference states at embedded walls are those of the present states, for every method, boundary condition, hierarchy, history of regrids and sequence of time steps, also when a step fails. In other words: filling ghost cells and recomputing reference states immediately before each level step changes nothing. After each coarse step all levels are at the same time with current ghost cells. The code: true for ghost cells with the subcycling solver and `regrid_frequency = 1`, and for reference states in the cells of a level. False for `regrid_frequency` other than 1, for refined levels with the solver without subcycling, and for reference states in ghost cells of the finest level in later subcycles.", "quantifier": "all numerical methods, fill functions, numbers of levels, refinement ratios, regrid histories, step sizes and initial states with current ghost cells", "why_tests_cant": "all hierarchies, histories and step sequences; tests compare single runs with themselves", "anchors": ["include/fub/solver/SubcycleFineFirstSolver.hpp: AdvanceLevel, AdvanceHierarchy", "include/fub/solver/NoSubcycleSolver.hpp: AdvanceLevel", "include/fub/solver/DimensionalSplitLevelIntegrator.hpp: PreAdvanceLevel", "src/AMReX/cutcell/IntegratorContext.cpp: PreAdvanceLevel, ResetHierarchyConfiguration, FillGhostLayerTwoLevels, FillGhostLayerSingleLevel", "include/fub/AMReX/cutcell/FluxMethod.hpp: PreAdvanceHierarchy", "include/fub/AMReX/IntegratorContext.hpp: IntegratorContextOptions::regrid_frequency"]}
{"id": "C187", "title": "The control of the gas turbine is told what flows through the machine", "statement": "After each time step the control gets the mass, species and energy fluxes through the first and the last face of each tube, whatever the patches of the tube are and on whichever process they lie, and for several tubes their mean. So over every history the mass in compressor plenum, tube and turbine plenum changes by what the compressor brings minus what the turbine takes. The mass flow to the turbine behind a two-dimensional plenum should be the flow through the outer faces of the last column of cells; the code takes the inner faces.", "quantifier": "all tubes, splittings into patches, distributions over processes, fluxes and histories of steps; all plena and boundary boxes", "why_tests_cant": "all distributions over processes and all histories; tests run one process with one patch", "anchors": ["include/fub/equations/perfect_gas_mix/PlenaControlFeedback.hpp: ControlFeedback::operator(), UpdateTurbinePlenumState", "src/equations/perfect_gas_mix/PlenaControl.cpp: Control::UpdatePlena", "include/fub/AMReX/AverageState.hpp: AverageState"]}
{"id": "C188", "title": "Mass flow boundaries let the demanded mass flow pass", "statement": "A turbine boundary on a mesh with an embedded boundary lets the mass flow pass that the cells in front of it demand: in the cellwise mode every ghost cell carries the demand of its own cell, in the averaged modes the mean over the box of the average, so that all modes let the same total pass through the boundary section, up to the accuracy of the transformation of the state, on every level and for every distribution over processes. Only the boundary section is written. The mass flow boundary of the ideal gas mixtures uses the average of the coarsest level weighted with the open volume.", "quantifier": "all equations, demands, states, boxes, patches, levels, distributions over processes, embedded boundaries and modes", "why_tests_cant": "all fields and all distributions over patches and processes; a test sees one mesh and one mode", "anchors": ["include/fub/AMReX/cutcell/boundary_condition/TurbineMassflowBoundary.hpp: AverageRequiredMassflow, FillBoundary, TransformState", "src/AMReX/cutcell/boundary_condition/MassflowBoundary.cpp: TotalVolume, AverageState, FillBoundary", "include/fub/AMReX/AverageState.hpp: AccumulateState"]}
{"id": "C189", "title": "The coefficients given to the pressure solver reach all its levels", "statement": "After any history of calls that set the coefficient, the cross coefficients and the diagonal on existing levels, choose the kind of average and prepare the solver: every call succeeds, the finest operator of each refinement level works with what was given last (under finer grids with the mean of the finer coefficient), the coarser multigrid levels work with the averages of the next finer ones, positive bounds of the coefficient hold on all levels, and the operators of the coarser multigrid levels can be applied and represent the same equation.", "quantifier": "all histories of calls, all numbers of refinement and multigrid levels, all grids, ratios and coefficients", "why_tests_cant": "all histories and numbers of levels; the examples of the repository all forbid coarser multigrid levels", "anchors": ["src/AMReX/MLMG/MLNodeHelmDualCstVel.cpp: define, setSigma, setSigmaCross, setAlpha, averageDownCoeffs, averageDownCoeffsToCoarseAmrLevel, averageDownCoeffsSameAmrLevel, FillBoundaryCoeff, prepareForSolve, Fapply", "include/fub/AMReX/MLMG/MLNodeHelmDualCstVel.hpp: m_sigma, m_sigmacross, m_alpha"]}
{"id": "C190", "title": "The right-hand side of the pressure equation on two refinement levels counts every cell once", "statement": "For every arrangement of fine grids, every velocity and every cell centered source on two levels, the right-hand side at a coarse node is the divergence and source of the coarse cells that are not covered plus the weighted contributions of the fine cells; summed up against any nodal function it is the work of the uncovered coarse cells against this function and of the fine cells against its bilinear interpolation; its sum is the total source, so the velocity never makes the equation unsolvable; and a velocity that is constant on both levels gives zero at every node. Inflow through a side of the domain is taken into account by exactly the fine grids at this side.", "quantifier": "all lists of disjoint fine grids, all coarse and fine velocities and sources with finite support, all nodal test functions, all nodes", "why_tests_cant": "all arrangements of grids and all fields; the repository has no test of the solver with more than one refinement level", "anchors": ["src/AMReX/MLMG/MLNodeHelmDualCstVel.cpp: compRHS, restrictInteriorNodes", "src/AMReX/MLMG/MLNodeHelmDualCstVel_2D_K.cpp: mlndhelm_divu_compute_fine_contrib, mlndhelm_divu_add_fine_contrib, mlndhelm_rhcc_fine_contrib, mlndhelm_divu_cf_contrib, mlndhelm_restriction"]}
{"id": "C191", "title": "The residual between two refinement levels belongs to the same equation as the right-hand side", "statement": "For every arrangement of fine grids and all coefficients: the residual that the solver computes on the coarse level is the weighted mean of the fine residual inside the fine level, that of the coarse level outside, and at the nodes between the levels it belongs to the operator of the equation: if the velocity on both levels is the coefficient times the gradient of a pressure, then the residual of this pressure for the right-hand side of this velocity is zero; and a diagonal that is the same on both levels has the same effect there as everywhere.", "quantifier": "all lists of fine grids, all coefficients and right-hand sides, all coarse and fine pressures, all nodes", "why_tests_cant": "all arrangements of grids and all fields; the repository has no test of the solver with more than one refinement level", "anchors": ["src/AMReX/MLMG/MLNodeHelmDualCstVel.cpp: reflux", "src/AMReX/MLMG/MLNodeHelmDualCstVel_2D_K.cpp: mlndhelm_res_fine_Ax, mlndhelm_res_fine_contrib, mlndhelm_res_cf_contrib"]}
{"id": "C192", "title": "What leaves a tube at a joint enters the plenum, on every level and in every direction", "statement": "For every list of connections between tubes and plena, every refinement and every distribution of the plena: the flux of mass, of momentum along the tube, of energy, species and scalars that a tube is updated with at its end, times the open area, is the flux through the faces of the plenum at this joint, unless the joint is switched off by a closed valve or by a normal; all other faces of the tubes keep their own fluxes; the content of a tube changes by its fluxes at its two ends. A gas at rest under a uniform pressure in the tube and in the plenum stays at rest.", "quantifier": "all lists of connections, all refinement ratios and levels, all distributions of patches, all states and fluxes, all directions and sides", "why_tests_cant": "all connections, refinements and distributions; no test computes coupled blocks", "anchors": ["src/AMReX/multi_block/MultiBlockIntegratorContext.cpp: ComputeNumericFluxes, AverageFlux_, GetBoundary, RefineCoarseBoxToLevel_", "src/AMReX/multi_block/MultiBlockIntegratorContext2.cpp: ComputeNumericFluxes"]}
{"id": "C193", "title": "A valve between a tube and a plenum is a wall when closed and a passage when open", "statement": "For every patch and tiling, every valve state, side and direction and all data: when the ghost cells at a joint are filled and the valve is closed, the ghost cells of the plenum are the mirror image of its cells with normal momentum reversed and those of the tube are the ones of its own boundary condition; when it is open every ghost cell holds the state stored for its position, and a cell without a stored state keeps its value; no cell inside of a block changes, and the result does not depend on the division into patches. The condition of the block itself is applied first, then those of its connections in order.", "quantifier": "all patches, tilings, ghost widths, directions, sides, valve states, stored states and data; all lists of connections", "why_tests_cant": "all geometries of patches and all histories of the valve; the repository has no test with a valve at a joint", "anchors": ["src/AMReX/multi_block/MultiBlockBoundary.cpp: MultiBlockBoundary::FillBoundary, ComputeBoundaryData", "src/AMReX/multi_block/MultiBlockIntegratorContext.cpp: WrapBoundaryCondition"]}
{"id": "C194", "title": "Repeated smoothing solves the pressure equation", "statement": "For positive coefficients without cross terms the pressure equation on a patch has exactly one solution for every mask, right-hand side and set of ghost values, and repeated smoothing converges to it geometrically from every starting field: with Gauss-Seidel for all cell sizes, with Jacobi as long as the ratio of the cell widths is below the square root of three.", "quantifier": "all patches, coefficients, masks, right-hand sides, ghost values and starting fields; all numbers of sweeps", "why_tests_cant": "a statement about the limit of infinitely many sweeps for all coefficients", "anchors": ["src/AMReX/MLMG/MLNodeHelmDualCstVel.cpp: MLNodeHelmDualCstVel::Fsmooth", "src/AMReX/MLMG/MLNodeHelmDualCstVel_2D_K.cpp: mlndhelm_gauss_seidel_aa, mlndhelm_jacobi_aa"]}
{"id": "C195", "title": "Every output adds one row to the probe file of each block", "statement": "For every sequence of outputs the probe file of each tube, of the plenum and of a cut-cell domain has one row for each output, in their order, with the data of this block at the coordinates the user listed; an old file of the cut-cell domain is kept under another name.", "quantifier": "all histories of outputs, all numbers of tubes, plena and probes, all file systems at the start", "why_tests_cant": "all histories and all configurations of blocks; the repository has no test of the probe output", "anchors": ["src/AMReX/cutcell/output/LogProbes.cpp: LogProbesOutput::LogProbesOutput, LogProbesOutput::operator()", "src/AMReX/cutcell/output/PerfectGasProbesOutput.cpp: PerfectGasProbesOutput::PerfectGasProbesOutput, PerfectGasProbesOutput::operator()"]}
{"id": "C196", "title": "A step of the second order cut-cell method depends only on the states at its start", "statement": "A time step on a level with the second order cut-cell flux method (MyFluxMethod) computes the reference states at the walls once for each directional sweep, from the states at the begin of the sweep, and the gradients for each split step from the present states. Its result depends only on the states of this level: gradients or reference states of earlier steps and of other levels are never used, whatever failed or was repeated before.", "quantifier": "all states, splitting methods, histories of earlier steps and failures, all levels", "why_tests_cant": "all histories and all sequences of split steps; the repository has no test of this method in a time step", "anchors": ["include/fub/AMReX/cutcell/MyFluxMethod.hpp: MyFluxMethod::PreSplitStep, MyFluxMethod::ComputeReferenceStates, MyFluxMethod::ComputeGradients, MyFluxMethod::ComputeNumericFluxes", "include/fub/solver/DimensionalSplitLevelIntegrator.hpp: AdvanceLevelNonRecursively", "src/AMReX/cutcell/IntegratorContext.cpp: IntegratorContext::PreSplitStep, IntegratorContext::GetReferenceGradients", "src/AMReX/multi_block/MultiBlockIntegratorContext.cpp: MultiBlockIntegratorContext::PreSplitStep"]}
{"id": "C197", "title": "Smoothing the pressure equation for linear velocities converges for all cell sizes", "statement": "With the operator for piecewise linear velocities (MLNodeHelmDualLinVel), positive coefficients and nonzero cell sizes, the pressure equation on a patch with given ghost values has exactly one solution for every Dirichlet mask and right-hand side. Repeated smoothing of the patch converges to it from every starting field, at least as fast as a geometric sequence, both with Gauss-Seidel and with damped Jacobi sweeps. Unlike for the other operator this needs no bound on the ratio of the cell sizes.", "quantifier": "all patch sizes, coefficients, cell sizes, masks, right-hand sides, ghost values and starting fields", "why_tests_cant": "a limit of infinitely many sweeps, over all coefficients", "anchors": ["src/AMReX/MLMG/MLNodeHelmDualLinVel.cpp: MLNodeHelmDualLinVel::Fsmooth", "src/AMReX/MLMG/MLNodeHelmDualLinVel_2D_K.cpp: mlndhelm_gauss_seidel_aa, mlndhelm_jacobi_aa, mlndhelm_adotx_aa"]}
{"id": "C198", "title": "The state of the TChem reactor is consistent after every history of calls", "statement": "After every history of calls of the TChem reactor (setting density, pressure, temperature, internal energy, mass or mole fractions, isentropic change of pressure, advance, update) the reported mole fractions belong to the reported mass fractions, density, pressure, temperature and fractions satisfy the law of the ideal gas, and after UpdateThermoState the heat capacities, enthalpies and the internal energy are those of the current temperature. Setting the internal energy keeps density and fractions, finds the temperature of this energy and has no memory of the temperature before. Advancing keeps the density.", "quantifier": "all mechanisms, integrators, histories of calls and arguments", "why_tests_cant": "a history of any length with arbitrary arguments; two calls far apart interact through cached values", "anchors": ["src/equations/ideal_gas_mix/TChemReactor.cpp: TChemReactor::SetInternalEnergy, TChemReactor::SetDensity, TChemReactor::Advance, TChemReactor::UpdateThermoState, TChemReactor::SetPressureIsentropic", "include/fub/equations/ideal_gas_mix/TChemReactor.hpp: TChemReactor", "third_party/TChem2/src/TC_src.c: TC_getSrcCV"]}
{"id": "C199", "title": "The Matlab interface for kinetics treats each cell on its own", "statement": "Advancing an array of states with the Matlab interface keeps density and momentum of each cell and gives it temperature, pressure, fractions, heat capacities and energy after a reaction at constant volume from its own state, whatever the other cells are and whatever was called before; equal cells get equal results. Setting temperature, pressure and mole fractions gives the state of these numbers. The enthalpies are those at the given temperature, and the mechanism in use is the one that was chosen last.", "quantifier": "all mechanisms, integrators, arrays of states and earlier calls", "why_tests_cant": "the result of a cell depends on all cells before it through the shared reactor", "anchors": ["apps/matlab/TChemKinetics_.cpp: Advance_, SetTPX_, GetEnthalpies_, SetMechanism_, UpdateStateFromKinetics_", "src/equations/ideal_gas_mix/TChemReactor.cpp: TChemReactor::UpdateThermoState, TChemReactor::SetInternalEnergy"]}
{"id": "C200", "title": "A coupled context is ready before each step and its gridding algorithm shows what is computed", "statement": "When `PreAdvanceHierarchy()` of a coupled context returns, each level of each tube and each plenum has its time point and its data. After any history of steps, of backups `backup = solver` and of restored backups `solver = *backup`, the grids of `GetGriddingAlgorithm()`, which the output and the run loop read, are the grids the next step advances. A restored backup has the states of all blocks at the time of the backup. The second version of the context satisfies this. The first version, `MultiBlockIntegratorContext`, prepares only the plena: a tube without level data never gets any. Its copies share the gridding algorithm with the original, so that after the first restored backup the output shows the state of the failed step for ever.", "quantifier": "all numbers of tubes and plena, all numbers of levels, all histories of steps, backups and restored backups, all effects of the steps on the blocks", "why_tests_cant": "A test restores at most a few backups and compares the result of the solver, not the later outputs; the statement is about every later step of every history.", "anchors": ["src/AMReX/multi_block/MultiBlockIntegratorContext.cpp: PreAdvanceHierarchy, PostAdvanceHierarchy, constructors", "include/fub/AMReX/multi_block/MultiBlockIntegratorContext.hpp: MultiBlockIntegratorContext", "src/AMReX/multi_block/MultiBlockIntegratorContext2.cpp: copy constructor, PreAdvanceHierarchy", "include/fub/RunSimulation.hpp: RunSimulation"]}
{"id": "C201", "title": "The Matlab files of a cut-cell domain show every cell of the finest grid", "statement": "`cutcell::WriteMatlabData(name, hierarchy, time, cycle, comm)` writes a header and a binary file. Read as the header says, as a column-major array with the lengths `size`, the entry of each cell of the domain of the finest level and of each component is the value of the finest level that covers the cell, wherever the patches live and whatever ranks own them. The coordinates `x0 + k dx` are those of the centre of the cell, the binary file has exactly the number of values the header says, and the data file named in the header is the one that is written. In three dimensions this is false: only the lowest plane is filled from the coarser levels.", "quantifier": "all hierarchies with any number of levels, patches, ranks, components and refinement ratios, all cells, all values", "why_tests_cant": "The composition depends on which rank owns which patch on which level; a test looks at one hierarchy, mostly two-dimensional.", "anchors": ["src/AMReX/cutcell/PatchHierarchy.cpp: WriteMatlabData", "include/fub/AMReX/cutcell/PatchHierarchy.hpp: WriteMatlabData"]}
{"id": "C202", "title": "The text output for Matlab is a table with one column for each name", "statement": "`WriteMatlabData(out, fab, equation, geometry)` writes a line of names and then one line for each cell in the order of the cells. Each line of numbers has one word for each column: coordinates, density, velocities (zero without density), speed of sound, temperature, pressure, ratio of heat capacities, heat capacity and the densities of the species. The line of names has the name of each column at the same place. The last part is false for every list of species: the name of the heat capacity fills more than its field and the name of the first species is glued to it, so the line has one word less than the others.", "quantifier": "all lists of species names, all grids and states, all ways numbers are printed in fields of 24 characters, one and three dimensions", "why_tests_cant": "The width of names and numbers depends on the mechanism and on the values; tests do not parse the text.", "anchors": ["src/AMReX/PatchHierarchy.cpp: WriteMatlabData", "include/fub/AMReX/PatchHierarchy.hpp: WriteMatlabData"]}
{"id": "C203", "title": "A tube behind a slanted wall sees the gas at that wall", "statement": "For a connection with a normal, the tube receives the average of the plenum over the cells of the mirror box whose wall is parallel to that normal: each such cell counts once, with the state of a full cell at the wall (the state of the cut cell for its open part, the state of the cell in front of the wall for the rest), no matter how the cells are distributed over processes. All ghost cells of the tube get this state with the component of the momentum along the normal; without such cells they keep their content.", "quantifier": "all normals and tolerances, all geometries (normals and volume fractions), all data, all mirror boxes, all distributions of cells over tiles and processes, all states of the gas, dimensions and numbers of ghost cells", "why_tests_cant": "The cells that take part depend on the geometry and on the decomposition of the domain; a test runs one geometry on one process, and a wrong neighbour is invisible in a gas that is nearly uniform at the wall.", "anchors": ["src/AMReX/multi_block/MultiBlockBoundary2.cpp: ReduceTotalVolume, IntegrateConserativeStates, AverageConservativeHierarchyStates", "include/fub/AMReX/multi_block/MultiBlockBoundary2.hpp: FillTubeGhostLayer"]}
{"id": "C204", "title": "The second order flux of a vector of faces next to cut cells", "statement": "ComputeNumericFlux of the MUSCL-Hancock method with face and volume fractions returns in the lane of every open face the flux that the scalar method returns for that face, with slopes that are set to zero where one of the three cells is covered. It depends neither on what covered cells contain nor on other lanes, preserves a uniform flow, and is zero at closed faces.", "quantifier": "all vectors of faces of any length, all face and volume fractions, all states in the cells, all four limiters, all equations whose versions with mask agree with those without; HLL with the perfect gas and Godunov as lower order methods; all time steps and cell sizes", "why_tests_cant": "Covered cells hold arbitrary numbers and the way faces are packed into vectors depends on the boxes of the patches; a test meets a few packings.", "anchors": ["include/fub/flux_method/MusclHancockMethod.hpp: MusclHancock::ComputeNumericFlux (face and volume fractions), NoLimiter, NoGradient, MinMod, VanLeer", "include/fub/flux_method/HllMethod.hpp: HllArrayBase::ComputeNumericFlux", "src/equations/perfect_gas/EinfeldtSignalVelocities.hpp"]}
{"id": "C205", "title": "Every level of a hierarchy without walls finds its own geometry and those of all coarser levels", "statement": "Building the embedded-boundary index spaces of a hierarchy without walls succeeds for every positive number of base cells and every refinement ratio (ratio one in some or all directions included) with up to 31 levels. It returns one index space per level. Looking up the box of level k in the index space of level l >= k gives exactly the geometry the hierarchy uses for level k, built with 4 * 2^k ghost cells, and at most one further level is built below the base. Asking for more coarsenings than the domain allows aborts instead of returning an index space without the required levels; looking up a box that belongs to no level reads behind the end of a vector.", "quantifier": "all dimensions, base cell counts, refinement ratios, physical geometries and numbers of levels up to 31", "why_tests_cant": "the number of levels, the ratio in every direction and the size of the base grid vary without bound; a test uses one grid", "anchors": ["src/AMReX/cutcell/AllRegularIndexSpace.cpp: AllRegularIndexSpace, getLevel, getGeometry, BuildRegularSpace", "src/AMReX/PatchHierarchy.cpp: PatchHierarchy::PatchHierarchy"]}
{"id": "C206", "title": "Integrating with the CVODE solver returns the solution at the end of the interval, observed or not, or reports a failure", "statement": "Integrate with the CVODE solver leaves in the vector of the caller the solution at t0 + dt, whether or not an observer is given; an observer sees every internal step once, in order; a failure of the library is reported; vectors of another size than the solver's are rejected; a clone behaves like the original.", "quantifier": "all right hand sides, vectors, times, step sequences and failures of the library, with and without observer, all vector sizes", "why_tests_cant": "the internal steps and the failures of the library depend on the right hand side, the vector and the tolerances; a test sees one sequence", "anchors": ["src/ode_solver/CVodeSolver.cpp: CVodeSolver::integrate, CVodeSolver::clone", "include/fub/ode_solver/CVodeSolver.hpp: CVodeSolver"]}
{"id": "C207", "title": "ODE solvers are made by name, whatever the order of static initialisation", "statement": "After static initialisation in any order, with the headers of the solvers included in any number of files, MakeSolver(\"RADAU\", options) makes the RADAU solver for all options, MakeSolver(\"CVode\", CVodeSolverOptions(n)) a CVODE solver for n variables, and every other name throws std::out_of_range. A name that is registered twice keeps its first entry. MakeSolver(\"CVode\") with the default options works like for RADAU.", "quantifier": "all orders and multiplicities of the registrations, all names, all options", "why_tests_cant": "the order in which static objects of different files are initialised is unspecified and changes with the linker; a test sees one order", "anchors": ["src/ode_solver/OdeSolverFactory.cpp: OdeSolverFactory::RegisterSpecificFactory, OdeSolverFactory::MakeSolver", "include/fub/ode_solver/RadauSolver.hpp: register_radau_solver_", "include/fub/ode_solver/CVodeSolver.hpp: register_cvode_solver_"]}
{"id": "C208", "title": "Transmissive boundaries on a single patch copy the nearest interior cell, in any order of the sides", "statement": "The transmissive boundary condition for a patch with its ghost cells gives each of the fill_width ghost cells of a side the state of the nearest interior cell of the same row and changes no other cell; sides in different directions can be filled in either order with the same result, corners included. Next to embedded boundaries a state that is not a number is replaced by the fallback state. A patch without interior cells is never read outside of its view unnoticed.", "quantifier": "all ranks, boxes, directions, sides, widths, states and fallback states", "why_tests_cant": "shape of patches, ghost cell width and the order of the sides vary; a test fills one patch in one order", "anchors": ["include/fub/boundary_condition/TransmissiveBoundary.hpp: TransmissiveBoundary::operator()"]}
{"id": "C209", "title": "The advective fluxes of the compressible advection solver follow the hierarchy through every history", "statement": "After every sequence of regrids, replaced griddings, writes and copies, asking the context for the advective fluxes of a level of the hierarchy returns fields on exactly the boxes of this level: two components on the cells with one ghost cell more than the scratch, one component on the faces of each direction with one ghost face more than the fluxes. A regrid keeps the values of all coarser levels and leaves those of the changed levels to be written again. A copy of the context holds all values of the original.", "quantifier": "all hierarchies, ghost widths, histories of operations and values", "why_tests_cant": "the number of levels grows and shrinks along a run; a test sees a few regrids of one hierarchy", "anchors": ["src/AMReX/CompressibleAdvectionIntegratorContext.cpp: CompressibleAdvectionIntegratorContext, ResetHierarchyConfiguration, GetAdvectiveFluxes", "src/AMReX/IntegratorContext.cpp: IntegratorContext::ResetHierarchyConfiguration"]}
{"id": "C210", "title": "Components of a state are numbered through all variables without gaps", "statement": "Asking a complete state for component number c returns the c-th number of the state, counted variable after variable with arrays of any depth (zero included); a number that is negative or not less than the number of components fails an assertion. Writing to a component changes this number and no other. The number of components is the sum of the depths, so exactly the numbers from zero below it are valid.", "quantifier": "all lists of variables with all depths, component numbers and values", "why_tests_cant": "the depths depend on the equation and on the number of species; a test fixes one equation", "anchors": ["include/fub/StateUtil.hpp: GetComponent, GetNumberOfComponents"]}
{"id": "C211", "title": "Coupled blocks: one boundary per connection and level, independent copies, every block regridded once", "statement": "Building the gridding of coupled tubes and plena gives every level the first plenum may have exactly one boundary per connection, in the order of the connections, with the width and the valve of its connection; a wrong number of valves is noticed. Regridding treats every block once and no foreign block. A copy shows the same blocks, connections and boundaries as the original and is independent of it: no later change of the copy is visible in the original.", "quantifier": "all lists of tubes, plena, connections and valves, all numbers of levels and later changes", "why_tests_cant": "sharing of objects shows only when a copy is changed later; a test sees one configuration", "anchors": ["src/AMReX/multi_block/MultiBlockGriddingAlgorithm.cpp: MultiBlockGriddingAlgorithm, RegridAllFinerLevels", "src/AMReX/multi_block/MultiBlockBoundary.cpp: MultiBlockBoundary"]}
{"id": "C212", "title": "Levels made while the initial grids are searched hold the initial condition on their last boxes", "statement": "Whatever sequence of levels is made from scratch, without skipping a level, afterwards every level is the initial condition on the boxes and at the time of the last request for it, with zero cycles, and levels nobody asked for are unchanged. A request that skips a level is an access outside of the hierarchy.", "quantifier": "all initial conditions, hierarchies and sequences of requests", "why_tests_cant": "how often the search for grids repeats levels depends on the data; a test sees one search", "anchors": ["src/AMReX/GriddingAlgorithm.cpp: GriddingAlgorithm::MakeNewLevelFromScratch"]}
