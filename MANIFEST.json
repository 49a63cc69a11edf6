{
 "claims": [
  {
   "property": "C01",
   "status": "proved",
   "theorems": [
    "Fub.run_time_le_final",
    "Fub.run_time_monotone",
    "Fub.ctx_run_clock"
   ],
   "note": ""
  },
  {
   "property": "C02",
   "status": "proved",
   "theorems": [
    "Fub.run_exit_reason",
    "Fub.run_terminates",
    "Fub.run_no_ub"
   ],
   "note": ""
  },
  {
   "property": "C03",
   "status": "proved",
   "theorems": [
    "Fub.run_attempts"
   ],
   "note": ""
  },
  {
   "property": "C04",
   "status": "partial",
   "theorems": [
    "Fub.run_rollback",
    "Fub.rollback_undefined"
   ],
   "note": "Proved for every solver whose copy is faithful; rollback_undefined shows that with the AMReX context and a cycle limit the retry reads undefined clocks, and C46 lists what its copy loses."
  },
  {
   "property": "C05",
   "status": "proved",
   "theorems": [
    "Fub.run_no_output_skipped",
    "Fub.nextOutputTime_single"
   ],
   "note": ""
  },
  {
   "property": "C06",
   "status": "partial",
   "theorems": [
    "Fub.output_duplicated_after_failure",
    "Fub.output_fresh_partial"
   ],
   "note": "The property is false of the code: a failed attempt makes an output fire twice (witness). The partial theorem covers runs without a failed attempt."
  },
  {
   "property": "C07",
   "status": "proved",
   "theorems": [
    "Fub.multiNext_spec",
    "Fub.multiShall_iff",
    "Fub.multiInvoked_spec"
   ],
   "note": ""
  },
  {
   "property": "C08",
   "status": "proved",
   "theorems": [
    "Fub.register_first_wins",
    "Fub.makeOutput_spec",
    "Fub.registerOutput_result",
    "Fub.outputOptions_defaults",
    "Fub.multi_from_options"
   ],
   "note": ""
  },
  {
   "property": "C09",
   "status": "proved",
   "theorems": [
    "Fub.godunov_schedule",
    "Fub.strang_schedule",
    "Fub.lumped_schedule",
    "Fub.strang3_schedule",
    "Fub.anySplit_changes_strang3",
    "Fub.system_source_order",
    "Fub.system_source_error",
    "Fub.anySplit3_schedule"
   ],
   "note": ""
  },
  {
   "property": "C10",
   "status": "proved",
   "theorems": [
    "Fub.splitDirections_perm",
    "Fub.splitDirections_alternate"
   ],
   "note": ""
  },
  {
   "property": "C11",
   "status": "proved",
   "theorems": [
    "Fub.subcycle_schedule",
    "Fub.subcycle_total_time",
    "Fub.advanceHierarchy_spec",
    "Fub.noSubcycle_schedule"
   ],
   "note": ""
  },
  {
   "property": "C12",
   "status": "proved",
   "theorems": [
    "Fub.computeStableDt_spec",
    "Fub.substeps_stable",
    "Fub.retry_uses_reported_dt",
    "Fub.noSubcycle_stable"
   ],
   "note": ""
  },
  {
   "property": "C13",
   "status": "proved",
   "theorems": [
    "Fub.level_steps_stable",
    "Fub.isSplitting_all",
    "Fub.levelStableDt_spec",
    "Fub.system_source_stable"
   ],
   "note": ""
  },
  {
   "property": "C14",
   "status": "partial",
   "theorems": [
    "Fub.clocks_agree_partial",
    "Fub.coarse_clock_exact",
    "Fub.clock_wrong_after_regrid"
   ],
   "note": "The property is false with four or more levels and a regrid in the middle of a step (witness). Proved: all levels when the grids do not change, the coarse level always."
  },
  {
   "property": "C46",
   "status": "partial",
   "theorems": [
    "Fub.context_copy_keeps",
    "Fub.context_copy_prepared_partial",
    "Fub.context_copy_loses_callbacks",
    "Fub.context_copy_clocks_undefined",
    "Fub.context_copy_no_regrid",
    "Fub.faces_copy_partial",
    "Fub.faces_copy_null_2d",
    "Fub.multiBlock_copy_partial",
    "Fub.multiBlock_copy_loses_plena"
   ],
   "note": "The property is false of the code in the five listed ways; the partial theorems state what a copy does keep."
  },
  {
   "property": "C47",
   "status": "partial",
   "theorems": [
    "Fub.regrid_times",
    "Fub.regrid_once",
    "Fub.regrid_loses_cycles"
   ],
   "note": "Times and once-per-time-point are proved for all histories; the cycle count part is false of the code (witness)."
  },
  {
   "property": "C18",
   "status": "proved",
   "theorems": [
    "Fub.contains_iff",
    "Fub.containsBox_spec",
    "Fub.intersect_spec",
    "Fub.grow_spec",
    "Fub.shrink_spec",
    "Fub.grow_shrink",
    "Fub.shift_spec",
    "Fub.face_neighbours",
    "Fub.embed_project",
    "Fub.neighborhood_spec",
    "Fub.embedIndex_injective"
   ],
   "note": "Index boxes of any rank as sets of integer vectors."
  },
  {
   "property": "C19",
   "status": "proved",
   "theorems": [
    "Fub.forEachIndex_spec",
    "Fub.forEachIndexMapping_spec",
    "Fub.forEachIndex_two"
   ],
   "note": "Every index of the box exactly once and in column-major order, any rank."
  },
  {
   "property": "C20",
   "status": "partial",
   "theorems": [
    "Fub.mapLeft_bijective",
    "Fub.mapRight_bijective",
    "Fub.strided_partial",
    "Fub.strided_overlap",
    "Fub.nested_left"
   ],
   "note": "Left and right layouts are bijections onto [0,size). For strided layouts injectivity holds for nested strides only; strided_overlap shows a strided mapping accepted by the API on which it fails."
  },
  {
   "property": "C21",
   "status": "partial",
   "theorems": [
    "Fub.subspan_elem",
    "Fub.subspan_ext_partial",
    "Fub.subspan_size",
    "Fub.select_inRange",
    "Fub.subspan_empty_misplaced",
    "Fub.nested_subspan",
    "Fub.subview_addr",
    "Fub.subview_box_partial",
    "Fub.sliceLast_addr"
   ],
   "note": "Proved when at least one range slice is nonempty in the last position; subspan_empty_misplaced is the counterexample for the general claim."
  },
  {
   "property": "C22",
   "status": "partial",
   "theorems": [
    "Fub.span_sub",
    "Fub.span_last_partial",
    "Fub.span_last_dynamic"
   ],
   "note": "last(n) on a dynamic-extent span is proved to point before the span (span_last_dynamic)."
  },
  {
   "property": "C23",
   "status": "partial",
   "theorems": [
    "Fub.forEachRow_spec",
    "Fub.forEachRow_two_partial",
    "Fub.forEachRow_empty",
    "Fub.rows_cells"
   ],
   "note": "Full claim for ranks 1 and 3; rank 2 needs nonempty views, forEachRow_empty is the counterexample."
  },
  {
   "property": "C15",
   "status": "proved",
   "theorems": [
    "Fub.updateSeq_spec",
    "Fub.update_conservative"
   ],
   "note": "Any rank, strides, direction; in-place update allowed."
  },
  {
   "property": "C16",
   "status": "partial",
   "theorems": [
    "Fub.updateSimd_eq",
    "Fub.fluxSimd_eq",
    "Fub.fluxSeq_spec",
    "Fub.updateSimd_empty"
   ],
   "note": "Equality of the whole memory for every vector width in 1 to 3 dimensions for non-empty views; for empty two-dimensional views it is false (updateSimd_empty)."
  },
  {
   "property": "C30",
   "status": "partial",
   "theorems": [
    "Fub.stableDtSimd_spec",
    "Fub.stableDtSeq_partial",
    "Fub.stableDt_simd_le_seq",
    "Fub.stableDt_seq_differs",
    "Fub.stableDt_seq_infinite",
    "Fub.adapterStableDt_spec",
    "Fub.stableDt_tiles_differ"
   ],
   "note": "The vectorised version is the minimum over all stencils; the sequential version leaves out the last one (witness), and tiled iteration leaves out stencils across tiles (witness)."
  },
  {
   "property": "C17",
   "status": "proved",
   "theorems": [
    "Fub.amr_conservative",
    "Fub.amr_conservative_noSubcycle",
    "Fub.amr_synchronised"
   ],
   "note": "Any dimension, number of levels, ratios, splitting and substep fluxes; the grids are properly nested and not changed within the step, the domain is not periodic."
  },
  {
   "property": "C24",
   "status": "partial",
   "theorems": [
    "Fub.counter_stats",
    "Fub.registry_records",
    "Fub.gather_partial",
    "Fub.gather_differs",
    "Fub.registry_gather"
   ],
   "note": "Full claim for the registry and the statistics of one process; statistics gathered from several processes are right only for equal sample numbers (gather_partial), gather_differs is the counterexample."
  },
  {
   "property": "C25",
   "status": "partial",
   "theorems": [
    "Fub.timer_once_partial",
    "Fub.timer_value",
    "Fub.timer_lost"
   ],
   "note": "All histories without move assignment to a running timer; timer_lost is the counterexample for the rest."
  },
  {
   "property": "C26",
   "status": "partial",
   "theorems": [
    "Fub.pool_partial",
    "Fub.pool_aliasing",
    "Fub.pool_cycle",
    "Fub.pool_returns_all",
    "Fub.pool_destroy_size"
   ],
   "note": "False of the code (pool_aliasing); proved for histories with at most one block of each size in use."
  },
  {
   "property": "C27",
   "status": "partial",
   "theorems": [
    "Fub.newton_converged_partial",
    "Fub.newton_converged_of_lower",
    "Fub.newton_negative_residual",
    "Fub.newton_negative_limit",
    "Fub.newton_nonneg",
    "Fub.newton_fixed"
   ],
   "note": "One-sided: the code only throws for positive residuals (newton_negative_residual)."
  },
  {
   "property": "C49",
   "status": "proved",
   "theorems": [
    "Fub.clamp_spec",
    "Fub.clamp_rejects",
    "Fub.ipow_spec"
   ],
   "note": ""
  },
  {
   "property": "C50",
   "status": "partial",
   "theorems": [
    "Fub.assert_plain_partial",
    "Fub.assert_throws_inverted"
   ],
   "note": "The throwing mode is inverted (assert_throws_inverted)."
  },
  {
   "property": "C28",
   "status": "partial",
   "theorems": [
    "Fub.muscl_limiters",
    "Fub.gradient_limiters",
    "Fub.reconstruction_in_range",
    "Fub.noLimiter_overshoots"
   ],
   "note": "MinMod, VanLeer and the gradient limiters are proved completely; the class NoLimiter, which can be chosen as a limiter too, violates the range property (witness)."
  },
  {
   "property": "C29",
   "status": "partial",
   "theorems": [
    "Fub.godunov_consistent",
    "Fub.hll_consistent",
    "Fub.hll_gas_consistent",
    "Fub.hll_degenerate",
    "Fub.einfeldt_masked_nan",
    "Fub.muscl_consistent",
    "Fub.muscl_implementations_agree",
    "Fub.scalar_solvers_consistent"
   ],
   "note": "Proved for all equations, states and signals with a signal interval of positive length. With vanishing signals the vectorised HLL flux returns zero (hll_degenerate), so the unconditional statement is false there."
  },
  {
   "property": "C31",
   "status": "proved",
   "theorems": [
    "Fub.burgers_riemann"
   ],
   "note": "All pairs of states; both implementations of solver and signals."
  },
  {
   "property": "C32",
   "status": "partial",
   "theorems": [
    "Fub.burgers_tvd",
    "Fub.burgers_max_principle",
    "Fub.advection_stable",
    "Fub.scalar_run_stable",
    "Fub.burgers_boundary_overshoot"
   ],
   "note": "Proved on periodic (and, for the maximum principle, unbounded) lines with the reported step sizes at all faces. Next to a non-periodic boundary the maximum principle fails (burgers_boundary_overshoot): the reported step size at a cell's own faces is not sufficient."
  },
  {
   "property": "C33",
   "status": "partial",
   "theorems": [
    "Fub.hll_jump_relations",
    "Fub.hll_solver_flux",
    "Fub.hll_solver_upwind",
    "Fub.hll_solver_array_partial",
    "Fub.hll_pressure_between",
    "Fub.hll_pressure_flux",
    "Fub.hll_solver_array_stale"
   ],
   "note": "Jump relations and upwinding are proved in full for the flux; the vectorised Riemann solver leaves dependent variables stale (hll_solver_array_stale), only its conservative part is correct."
  },
  {
   "property": "C35",
   "status": "proved",
   "theorems": [
    "Fub.gas_prim_roundtrip",
    "Fub.gas_cons_roundtrip",
    "Fub.gas_complete_iff",
    "Fub.gas_temperature_mach",
    "Fub.gas_gamma_only_fails"
   ],
   "note": "All ranks and states; scalar, array and masked conversions. The parameters must be those of a constructed equation: overwriting the public member gamma alone breaks the round trip (gas_gamma_only_fails)."
  },
  {
   "property": "C36",
   "status": "proved",
   "theorems": [
    "Fub.gas_reflect",
    "Fub.gas_reflect_wall",
    "Fub.gas_rotate",
    "Fub.gas_rotate_flux",
    "Fub.gas_flux_versions"
   ],
   "note": "All ranks, unit normals and orthogonal rotations."
  },
  {
   "property": "C51",
   "status": "proved",
   "theorems": [
    "Fub.hll_gas_step_positive",
    "Fub.hll_gas_run_positive",
    "Fub.hll_gas_solver_positive",
    "Fub.einfeldt_bounds"
   ],
   "note": "Exact real arithmetic; the line is infinite (periodic data included)."
  },
  {
   "property": "C34",
   "status": "partial",
   "theorems": [
    "Fub.sw_flux_partial",
    "Fub.sw_flux_false"
   ],
   "note": "The code uses the momentum as velocity (ShallowWater.cpp:29,39). The flux is right exactly for height one or vanishing normal momentum; its height component is always right."
  },
  {
   "property": "C52",
   "status": "proved",
   "theorems": [
    "Fub.sw_middle_unique",
    "Fub.sw_newton_derivative",
    "Fub.sw_newton_converges",
    "Fub.sw_dry_bed_throws",
    "Fub.sw_sample_exact",
    "Fub.sw_riemann_exact",
    "Fub.sw_exact_signals",
    "Fub.sw_solver_consistent"
   ],
   "note": "Exact real arithmetic. The convergence theorem does not bound the number of iterations by the 5000 of the code."
  },
  {
   "property": "C53",
   "status": "proved",
   "theorems": [
    "Fub.sw_signals",
    "Fub.sw_hll_step_positive"
   ],
   "note": "Independent of the wrong momentum flux (C34), since the height component is right."
  },
  {
   "property": "C54",
   "status": "partial",
   "theorems": [
    "Fub.hllem_consistent_partial",
    "Fub.hllem_array_consistent",
    "Fub.hllem_scalar_eq_array_partial",
    "Fub.hllem_array_contact_partial",
    "Fub.hllem_contact_partial",
    "Fub.hllem_mirror_partial",
    "Fub.hllem_scalar_3d_stale",
    "Fub.hllem_larr_scalar_sign",
    "Fub.hllem_array_3d_contact_false"
   ],
   "note": "False of the code in three dimensions and for the scalar Larrouturou version (three counterexample theorems); proved for every other variant. No species."
  },
  {
   "property": "C55",
   "status": "proved",
   "theorems": [
    "Fub.hllem_roeA2_pos",
    "Fub.hllem_data_facts",
    "Fub.hllem_upwind",
    "Fub.hllem_pstar",
    "Fub.hllem_stable_dt",
    "Fub.hllem_masked"
   ],
   "note": "Exact real arithmetic; upwinding for the version without Larrouturou's splitting."
  },
  {
   "property": "C56",
   "status": "partial",
   "theorems": [
    "Fub.hllem_solve_same_partial",
    "Fub.hllem_solve_larr_loses_momentum",
    "Fub.hllem_solve_negative_density"
   ],
   "note": "False of the code: the state correction lacks the factor 2/(bR-bL), and the Larrouturou version drops tangential momentum in supersonic flow. Proved: equal states without the splitting."
  },
  {
   "property": "C37",
   "status": "proved",
   "theorems": [
    "Fub.reflective_fill",
    "Fub.reflective_fill_gas",
    "Fub.reflective_wall_hll",
    "Fub.einfeldt_wall"
   ],
   "note": "All dimensions, patches, tilings, ghost widths. The AMReX box operations (complement, periodic growth) are modelled from their documented behaviour."
  },
  {
   "property": "C38",
   "status": "proved",
   "theorems": [
    "Fub.transmissive_fill",
    "Fub.constant_fill"
   ],
   "note": "Includes the constant boundary, which fills the same cells with the configured state."
  },
  {
   "property": "C39",
   "status": "proved",
   "theorems": [
    "Fub.boundarySet_order",
    "Fub.boundarySet_transmissive",
    "Fub.nearestCell_full",
    "Fub.boundarySet_reflective",
    "Fub.boundarySet_reflective_wrong_order"
   ],
   "note": "The last theorem shows the stale corner cells for the wrong order of reflective conditions."
  },
  {
   "property": "C40",
   "status": "partial",
   "theorems": [
    "Fub.valve_transitions",
    "Fub.valve_schedule",
    "Fub.valve_fuel_start",
    "Fub.valve_negative_offset"
   ],
   "note": "Proved for non-negative offset and interval; valve_negative_offset shows that the interval is ignored for a negative offset."
  },
  {
   "property": "C57",
   "status": "proved",
   "theorems": [
    "Fub.generic_valve_step",
    "Fub.generic_valve_run",
    "Fub.openedAfter_run",
    "Fub.klein_opened",
    "Fub.reduced_model_opened",
    "Fub.deflagration_valve",
    "Fub.generic_valve_assertion_fails"
   ],
   "note": "For inner pressures that are numbers, and non-negative compressor pressures for the valve with hysteresis; the last theorem shows that both hypotheses are needed."
  },
  {
   "property": "C41",
   "status": "proved",
   "theorems": [
    "Fub.union_solid",
    "Fub.invert_solid",
    "Fub.halfspace_distance",
    "Fub.rotateAroundPoint_solid",
    "Fub.rotateAxis_solid"
   ],
   "note": ""
  },
  {
   "property": "C42",
   "status": "proved",
   "theorems": [
    "Fub.polygon_distance",
    "Fub.polygon_width",
    "Fub.segDistance_spec",
    "Fub.crossedLine_spec",
    "Fub.polygon_empty"
   ],
   "note": "For at least one vertex; without vertices the loop reads outside of the arrays (polygon_empty)."
  },
  {
   "property": "C43",
   "status": "partial",
   "theorems": [
    "Fub.cone_sign_partial",
    "Fub.cone_not_distance",
    "Fub.ball_partial",
    "Fub.ball_wrong"
   ],
   "note": "The signs of the cone are proved, except that mantle points near the axis may be negative instead of zero; the ball has the sign of its solid only for radius one (ball_wrong)."
  },
  {
   "property": "C58",
   "status": "partial",
   "theorems": [
    "Fub.tube_solid_partial",
    "Fub.tubePlanes_get",
    "Fub.tube_sections_disjoint",
    "Fub.tube_straight_wrong"
   ],
   "note": "The decomposition into disjoint sections is proved; that the tube contains its centerline and ends at its end is false (tube_straight_wrong)."
  },
  {
   "property": "C44",
   "status": "partial",
   "theorems": [
    "Fub.tagBuffer2_partial",
    "Fub.tagBuffer2_wrong",
    "Fub.tagBuffer2_covers",
    "Fub.tagBuffer3_partial",
    "Fub.tagBuffer3_tags_all",
    "Fub.tagBuffer1_out_of_range",
    "Fub.tagBuffer1_wrong",
    "Fub.tagBuffer_zero"
   ],
   "note": "False in all dimensions: asymmetric in 2-D, tags are ignored in 3-D, out of range access and toggled tags in 1-D. What holds in 2-D and 3-D is proved exactly."
  },
  {
   "property": "C45",
   "status": "proved",
   "theorems": [
    "Fub.tagCutCells_spec",
    "Fub.tagAllOf_spec"
   ],
   "note": ""
  },
  {
   "property": "C59",
   "status": "partial",
   "theorems": [
    "Fub.gradTag_spec",
    "Fub.gradRow_partial",
    "Fub.gradRow_wrong"
   ],
   "note": "Proved for the scalar detector (with and without volume fractions, all ranks). The vectorised detector is correct only for rows that fit into one vector, up to pairs of zeros; gradRow_wrong is the counterexample for every larger row length W+1."
  },
  {
   "property": "C60",
   "status": "partial",
   "theorems": [
    "Fub.constantBox_partial",
    "Fub.constantBox_wrong"
   ],
   "note": "Proved for equal refinement ratios, false otherwise."
  },
  {
   "property": "C48",
   "status": "partial",
   "theorems": [
    "Fub.primReconstruct_predictor",
    "Fub.charReconstruct_predictor",
    "Fub.charReconstruct_mach_wrong",
    "Fub.primReconstruct_mach",
    "Fub.primReconstruct_jump",
    "Fub.gradient_linear",
    "Fub.reconstruct_constant",
    "Fub.gradient_components"
   ],
   "note": "Proved for Mach number scaling one. False otherwise: the scalar version divides the velocity slope by the Mach number, the vectorised version multiplies by it."
  },
  {
   "property": "C61",
   "status": "partial",
   "theorems": [
    "Fub.reconstructInvers_partial",
    "Fub.reconstructInvers_fails",
    "Fub.reconstructInvers_wrong"
   ],
   "note": "Proved for zero pressure slope (except the passive scalars, whose error is stated exactly). False with a pressure slope."
  },
  {
   "property": "C62",
   "status": "proved",
   "theorems": [
    "Fub.computeConstants_valid",
    "Fub.mix_prim_roundtrip",
    "Fub.mix_cons_roundtrip",
    "Fub.mix_complete_iff",
    "Fub.mix_flux",
    "Fub.mix_reflect_rotate"
   ],
   "note": ""
  },
  {
   "property": "C63",
   "status": "partial",
   "theorems": [
    "Fub.kinetic_roundtrip",
    "Fub.kinFromMixArray_normalised",
    "Fub.mixFromKin_mach",
    "Fub.mixSetVelocity_spec",
    "Fub.mixPressureOfCons_spec"
   ],
   "note": "Proved for Mach number scaling one, which is what ComputeConstants gives. With another scaling the scalar versions are wrong; the exact errors are proved."
  },
  {
   "property": "C64",
   "status": "partial",
   "theorems": [
    "Fub.setIsentropic_partial",
    "Fub.setIsentropic_species_wrong"
   ],
   "note": "Pressure, entropy and (up to the stagnation pressure) total enthalpy proved. False for the composition and above the stagnation pressure."
  },
  {
   "property": "C65",
   "status": "partial",
   "theorems": [
    "Fub.isentropicExpansion_partial",
    "Fub.isentropicExpansion_wrong",
    "Fub.isentropicExpansion_speed",
    "Fub.gasExpansion_partial",
    "Fub.gasExpansion_wrong",
    "Fub.mixExpandState_partial",
    "Fub.mixExpandState_speed"
   ],
   "note": "Only pressure and density are correct; the energy balance is false in both versions."
  },
  {
   "property": "C66",
   "status": "proved",
   "theorems": [
    "Fub.gas_newton_derivative",
    "Fub.gas_middle_unique",
    "Fub.gas_newton_converges",
    "Fub.gas_vacuum_throws",
    "Fub.gas_middle_velocity",
    "Fub.gas_middle_error",
    "Fub.gas_exact_solution",
    "Fub.gas_exact_solver",
    "Fub.gas_exact_signals",
    "Fub.gas_exact_consistent",
    "Fub.gas_exact_positive",
    "Fub.gas_exact_masked"
   ],
   "note": "Exact real arithmetic. The convergence theorem does not bound the number of iterations by the 5000 of the code; for an inexact middle state an error bound and positivity are proved."
  },
  {
   "property": "C67",
   "status": "proved",
   "theorems": [
    "Fub.face_parts",
    "Fub.face_parts_rel",
    "Fub.face_parts_simd"
   ],
   "note": ""
  },
  {
   "property": "C68",
   "status": "proved",
   "theorems": [
    "Fub.wallArea_eq",
    "Fub.cut_cell_balance",
    "Fub.cut_line_conservative",
    "Fub.cut_line_closed",
    "Fub.cut_update2_balance"
   ],
   "note": "For both time integrators. The wall area that the first one uses leaves out the doubly shielded part of a face."
  },
  {
   "property": "C69",
   "status": "partial",
   "theorems": [
    "Fub.kbn_flux_between",
    "Fub.cut_cell_bounded",
    "Fub.cut_uniform",
    "Fub.cut_update2_unbounded"
   ],
   "note": "Proved for the stabilised integrator; false for TimeIntegrator2."
  },
  {
   "property": "C70",
   "status": "partial",
   "theorems": [
    "Fub.cut_row_simd",
    "Fub.cut_row_covered",
    "Fub.cut_row_covered_mixed"
   ],
   "note": "Proved for cells with volume; covered cells in a pack with other cells keep a value."
  },
  {
   "property": "C71",
   "status": "proved",
   "theorems": [
    "Fub.make_rotation2",
    "Fub.make_rotation3",
    "Fub.make_rotation_flux"
   ],
   "note": "For opposite vectors in three dimensions the matrix is a point reflection, orthogonal but not a rotation."
  },
  {
   "property": "C72",
   "status": "partial",
   "theorems": [
    "Fub.shock_gap",
    "Fub.wall_middle",
    "Fub.wall_residual",
    "Fub.wall_riemann",
    "Fub.kbn_wall_state",
    "Fub.kbn_boundary_flux",
    "Fub.kbn_wall_exchange",
    "Fub.kbn_wall_rest",
    "Fub.kbn_wall_exchange_wrong",
    "Fub.kbn_reference"
   ],
   "note": "Proved away from doubly shielded faces; false next to them."
  },
  {
   "property": "C73",
   "status": "partial",
   "theorems": [
    "Fub.cut_reflux_partial",
    "Fub.cut_reflux_content",
    "Fub.cut_reflux_wrong"
   ],
   "note": "Proved for whole cells and open faces; false for cut ones."
  },
  {
   "property": "C74",
   "status": "partial",
   "theorems": [
    "Fub.arrhenius_step",
    "Fub.arrhenius_conserves",
    "Fub.arrhenius_burns",
    "Fub.arrhenius_cold",
    "Fub.arrhenius_cold_drift",
    "Fub.arrhenius_negative",
    "Fub.arrhenius_lean"
   ],
   "note": "Proved above the switch temperature; below it and for lean gas the code adds or sets fuel of 2^-26, which grows with every step and makes the product negative."
  },
  {
   "property": "C75",
   "status": "partial",
   "theorems": [
    "Fub.ignition_step",
    "Fub.ignition_conserves",
    "Fub.ignition_decay",
    "Fub.ignition_delay_partial",
    "Fub.ignition_delay_wrong",
    "Fub.ignition_small_tau"
   ],
   "note": "Conservation proved for all options with Yign/Yinit <= tau; the delay is proved for tau = 1 and false for others."
  },
  {
   "property": "C76",
   "status": "partial",
   "theorems": [
    "Fub.ignitionDelay_hasDerivAt",
    "Fub.ignitionDelay_deriv_wrong",
    "Fub.ignitionDelay_strictAnti",
    "Fub.temperatureForDelay_sound",
    "Fub.temperatureForDelay_partial",
    "Fub.temperatureForDelay_overshoot"
   ],
   "note": "Derivative proved for fuel fractions of at least eps, convergence from the cold side up to a quarter of the activation energy."
  },
  {
   "property": "C77",
   "status": "partial",
   "theorems": [
    "Fub.control_rpm",
    "Fub.control_pressure",
    "Fub.compressor_ratio_bounds",
    "Fub.compressor_ratio_default",
    "Fub.compressor_ratio_wrong",
    "Fub.control_fuel",
    "Fub.control_energy_partial",
    "Fub.control_energy_wrong",
    "Fub.control_regulation",
    "Fub.control_sec",
    "Fub.control_mass",
    "Fub.control_averages_partial",
    "Fub.control_averages_wrong",
    "Fub.control_fails",
    "Fub.control_turbine",
    "Fub.control_compressor_power",
    "Fub.feedback_turbine",
    "Fub.feedback_run_history",
    "Fub.feedback_rpm"
   ],
   "note": "Balances hold inside of the speed range and for time steps up to one; outside of these the code loses power, oscillates or takes the square root of a negative number."
  },
  {
   "property": "C78",
   "status": "partial",
   "theorems": [
    "Fub.turbine_ghost_partial",
    "Fub.turbine_ghost_scalars",
    "Fub.turbine_ghost_enthalpy",
    "Fub.turbine_ghost_expanding"
   ],
   "note": "The passive scalars are not rescaled, the inflow velocity does not give the total enthalpy of the plenum and the outflow loses total enthalpy: each is proved as a negative result."
  },
  {
   "property": "C79",
   "status": "partial",
   "theorems": [
    "Fub.gas_pressure_outflow_partial",
    "Fub.mix_pressure_outflow_partial",
    "Fub.pressure_outflow_wrong"
   ],
   "note": "The test for supersonic flow uses the magnitude of the velocity; proved as it is, with the wrong consequence for oblique flow."
  },
  {
   "property": "C80",
   "status": "partial",
   "theorems": [
    "Fub.mach_boundary_partial",
    "Fub.mach_boundary_wrong"
   ],
   "note": "The density uses the exponent 1/(gamma+1), so that the Mach number of the ghost state is too large; proved."
  },
  {
   "property": "C81",
   "status": "partial",
   "theorems": [
    "Fub.requiredMassflow_spec",
    "Fub.jirasek_partial",
    "Fub.jirasek_consistent",
    "Fub.jirasek_wrong"
   ],
   "note": "Holds for results that are not supersonic in at least two dimensions. For supersonic flow the density is limited and the velocity is not, so that the mass flow exceeds the required one."
  },
  {
   "property": "C82",
   "status": "partial",
   "theorems": [
    "Fub.massflow_left_partial",
    "Fub.massflow_right_partial",
    "Fub.massflow_right_wrong",
    "Fub.massflow_left_choked"
   ],
   "note": "The supersonic test on the right side has a wrong sign; proved with the inputs for which the flux is wrong."
  },
  {
   "property": "C83",
   "status": "proved",
   "theorems": [
    "Fub.bisect_spec",
    "Fub.require_massflow",
    "Fub.require_massflow_accuracy",
    "Fub.require_massflow_found",
    "Fub.require_massflow_fails",
    "Fub.massflow_left_inverse"
   ],
   "note": "For the perfect gas in exact real arithmetic; the library bisection is modelled after its documentation."
  },
  {
   "property": "C84",
   "status": "partial",
   "theorems": [
    "Fub.massflow_cut_partial",
    "Fub.massflow_cut_wrong"
   ],
   "note": "Only a state that has the mass flow already is treated right; otherwise inner and outer velocity are exchanged and the density is that of the inner state. Proved as a negative result for all accelerated states."
  },
  {
   "property": "C85",
   "status": "partial",
   "theorems": [
    "Fub.pre_shock_state",
    "Fub.riemann_data"
   ],
   "note": "The jump conditions are proved to hold exactly if the gas in front moves in the direction of the normal; the code uses the norm of the velocity."
  },
  {
   "property": "C86",
   "status": "proved",
   "theorems": [
    "Fub.axial_update_cells",
    "Fub.axial_conserves",
    "Fub.axial_constant_area",
    "Fub.axial_at_rest",
    "Fub.axial_rest_hllem",
    "Fub.recompute_ax"
   ],
   "note": "For all area profiles; the HLLEM flux of C33 is used for gas at rest."
  },
  {
   "property": "C87",
   "status": "partial",
   "theorems": [
    "Fub.axial_source_isentropic",
    "Fub.axial_source_exact",
    "Fub.axial_source_trivial",
    "Fub.axial_source_steps",
    "Fub.axial_source_needs_area",
    "Fub.axial_source_shifted",
    "Fub.axial_source_reads"
   ],
   "note": "The exact equations are proved isentropic and the step a Runge-Kutta step. Proved to disagree: the function called diameter has to be the area, slope and area are taken at the right face, and ghost cells are read out of range."
  },
  {
   "property": "C88",
   "status": "proved",
   "theorems": [
    "Fub.diff_flux_zero",
    "Fub.diff_flux_down",
    "Fub.diff_enthalpy",
    "Fub.diff_step_mass",
    "Fub.diff_step_conserves",
    "Fub.diff_species_maximum_partial",
    "Fub.diff_coefficients",
    "Fub.diff_species_maximum",
    "Fub.diff_tube_conserves",
    "Fub.insulating_cases",
    "Fub.diff_flux_sum"
   ],
   "note": "The maximum principle holds for any number of steps with dt <= rho dx^2 / (2 muSc) in every cell, for ends that copy, mirror or prescribe the mass fractions (diff_species_maximum); diff_species_maximum_partial is the local version away from the ends, which also serves periodic tubes. One patch, exact numbers."
  },
  {
   "property": "C89",
   "status": "partial",
   "theorems": [
    "Fub.diff_copy_loses_options",
    "Fub.diff_copy_partial",
    "Fub.diff_unstable"
   ],
   "note": "Both parts are proved to be false: copies get the default options, and the largest double is reported as stable step."
  },
  {
   "property": "C90",
   "status": "partial",
   "theorems": [
    "Fub.axi_source_partial",
    "Fub.axi_source_skips",
    "Fub.axi_source_inflow_dropped",
    "Fub.axi_source_time",
    "Fub.axi_species_rate",
    "Fub.axi_species_wrong"
   ],
   "note": "Density and internal energy of outward flow are proved to get the Runge-Kutta factors of the exact solution. Proved to disagree: inward flow is not advanced, the steps cover the time step only if it is a multiple of the step size, and species rates have a further factor of the density."
  },
  {
   "property": "C91",
   "status": "partial",
   "theorems": [
    "Fub.ignite_exactly",
    "Fub.ignite_equivalence",
    "Fub.ignite_schedule",
    "Fub.ignite_count",
    "Fub.ignite_ranks",
    "Fub.ignite_catches_up",
    "Fub.ignite_offset_zero"
   ],
   "note": "Schedule and fuel criterion are proved for a positive offset. The distance of consecutive ignitions and the default offset zero are proved to disagree."
  },
  {
   "property": "C92",
   "status": "proved",
   "theorems": [
    "Fub.ignite_profile",
    "Fub.ignite_profile_range",
    "Fub.ignite_point"
   ],
   "note": "For a positive ramp width."
  },
  {
   "property": "C93",
   "status": "partial",
   "theorems": [
    "Fub.average_mean",
    "Fub.average_range",
    "Fub.accumulate_cells",
    "Fub.average_uncovered"
   ],
   "note": "Proved if the level covers the box; otherwise the average is proved to be too small by the covered fraction."
  },
  {
   "property": "C94",
   "status": "partial",
   "theorems": [
    "Fub.interpolate_exact_partial",
    "Fub.interpolate_reads_past",
    "Fub.interpolate_ratio",
    "Fub.mirror_width",
    "Fub.mean_range"
   ],
   "note": "Proved for refining, equal cells and for coarsening whose ghost layer does not end at a source face; in the remaining case, in particular for every integer ratio, the code reads behind the source (disagreement)."
  },
  {
   "property": "C95",
   "status": "partial",
   "theorems": [
    "Fub.slice_average",
    "Fub.slice_average_range",
    "Fub.reduced_index",
    "Fub.gather_mirror"
   ],
   "note": "Means, ranges and independence of the distribution are proved; for connections in the second or third direction the averages are written outside of their storage (disagreement in reduced_index)."
  },
  {
   "property": "C96",
   "status": "partial",
   "theorems": [
    "Fub.embed_keeps",
    "Fub.reduce_pressure",
    "Fub.reduce_embed",
    "Fub.ghost_sources",
    "Fub.block_ghost_fill"
   ],
   "note": "Positions, embedding and the round trip are proved; the reduction does not keep the pressure (reduce_pressure gives the exact error)."
  },
  {
   "property": "C97",
   "status": "partial",
   "theorems": [
    "Fub.block_conditions",
    "Fub.block_updates_prefix",
    "Fub.block_updates_missed",
    "Fub.block_updates_none",
    "Fub.copy_block_context"
   ],
   "note": "Proved for blocks whose connections come first in the list; the others are missed or paired wrongly and copies lose members (disagreements)."
  },
  {
   "property": "C98",
   "status": "partial",
   "theorems": [
    "Fub.average_flux_conserves",
    "Fub.average_flux_closed",
    "Fub.get_boundary_lower",
    "Fub.get_boundary_upper"
   ],
   "note": "Conservation is proved for the faces that are used; at the upper side these are not the boundary faces (disagreement)."
  },
  {
   "property": "C99",
   "status": "proved",
   "theorems": [
    "Fub.node_divergence",
    "Fub.get_fluxes",
    "Fub.helm_apply_flux",
    "Fub.helm_apply_const",
    "Fub.node_div_adjoint",
    "Fub.node_div_sum",
    "Fub.helm_energy",
    "Fub.node_rhcc"
   ],
   "note": "Two-dimensional, one level, exact arithmetic."
  },
  {
   "property": "C100",
   "status": "partial",
   "theorems": [
    "Fub.helm_solvable",
    "Fub.helm_solvable_incompressible",
    "Fub.helm_kernel",
    "Fub.helm_checkerboard"
   ],
   "note": "Periodic grids. Uniqueness up to a constant is false (checkerboard modes on even grids, helm_checkerboard); uniqueness of the gradient is what is proved. That the multigrid iteration converges is not modelled."
  },
  {
   "property": "C101",
   "status": "partial",
   "theorems": [
    "Fub.helm_diag_neg",
    "Fub.jacobi_fixed",
    "Fub.gs_node_residual",
    "Fub.gs_sweep_fixed",
    "Fub.helm_ha_partial",
    "Fub.helm_ha_const",
    "Fub.helm_ha_not_conservative",
    "Fub.avgdown_bounds",
    "Fub.restrict_affine",
    "Fub.interp_bounds",
    "Fub.interp_affine",
    "Fub.helm_normalize"
   ],
   "note": "Fixed points of single sweeps and transfer operators; convergence of the multigrid cycle and coarse-fine residuals are not modelled. The coarse operator uses one harmonic coefficient in both directions of a term (helm_ha_not_conservative)."
  },
  {
   "property": "C102",
   "status": "partial",
   "theorems": [
    "Fub.lm_flux_upwind",
    "Fub.lm_flux_uniform",
    "Fub.lm_flux_mirror",
    "Fub.lm_flux_linear",
    "Fub.lm_stable_dt",
    "Fub.lm_advect_uniform",
    "Fub.lm_advect_chi",
    "Fub.lm_advect_pt",
    "Fub.lm_advect_conserves",
    "Fub.lm_overshoot"
   ],
   "note": "Bounds are not kept because the slopes are not limited (lm_overshoot)."
  },
  {
   "property": "C103",
   "status": "partial",
   "theorems": [
    "Fub.lm_face_divergence",
    "Fub.lm_advect_incompressible",
    "Fub.lm_coriolis_backward",
    "Fub.lm_forward_coriolis",
    "Fub.lm_coriolis_energy",
    "Fub.lm_correct_pv",
    "Fub.lm_backward_divergence",
    "Fub.lm_backward_projects",
    "Fub.lm_initial_projection_partial",
    "Fub.lm_initial_projection_stale"
   ],
   "note": "The projection holds for axis k2 = 1 and an operator whose diagonal has not been set by an earlier compressible step; otherwise it is false (lm_initial_projection_stale)."
  },
  {
   "property": "C104",
   "status": "partial",
   "theorems": [
    "Fub.lm_run_mass",
    "Fub.lm_step_incompressible",
    "Fub.lm_step_uniform",
    "Fub.lm_step_failure",
    "Fub.lm_step_failure_changes"
   ],
   "note": "Periodic, one level, exact linear solver; divergence freedom needs positive advected density. A failed step may leave a changed momentum (lm_step_failure_changes)."
  },
  {
   "property": "C105",
   "status": "partial",
   "theorems": [
    "Fub.lp_solves",
    "Fub.md_limiter_optimal",
    "Fub.md_limiter_partial",
    "Fub.md_limiter_unchanged",
    "Fub.md_limiter_idempotent",
    "Fub.md_limiter_extremum",
    "Fub.connected_iff",
    "Fub.md_limiter_misses_open_neighbour"
   ],
   "note": "Proved for the neighbours the code counts as connected, in exact arithmetic (Cramer's rule instead of QR). Missing: neighbours behind an open face that the code does not count; md_limiter_misses_open_neighbour shows that the reconstruction overshoots them."
  },
  {
   "property": "C106",
   "status": "partial",
   "theorems": [
    "Fub.lsq_minimal",
    "Fub.lsq_exists",
    "Fub.lsq_affine",
    "Fub.cut_gradient_affine",
    "Fub.grad_stencil_open_partial",
    "Fub.grad_channel_fails",
    "Fub.grad_sort_not_an_order"
   ],
   "note": "The fit is proved in general (normal equations instead of QR). The choice of neighbours is proved if the volumes are ordered like the faces. Missing: other geometries, where the comparison is not a strict weak order and assertions fail (grad_sort_not_an_order), and channels one cell wide (grad_channel_fails)."
  },
  {
   "property": "C107",
   "status": "partial",
   "theorems": [
    "Fub.hgrid_regular_exact",
    "Fub.hgrid_shielded_exact",
    "Fub.hgrid_wall_mirror_partial",
    "Fub.hgrid_wall_uniform",
    "Fub.hgrid_wall_gradient_not_mirrored"
   ],
   "note": "Exactness and mirroring of the states are proved; gradients of scalars are mirrored. The gradient of the velocity is not mirrored by the code (hgrid_wall_gradient_not_mirrored). Conversions between complete and gradient variables are the identity in the model; the base class variant of the wall stencil is not modelled."
  },
  {
   "property": "C108",
   "status": "partial",
   "theorems": [
    "Fub.reference_state_exact_partial",
    "Fub.reference_stored",
    "Fub.my_shielded_covered",
    "Fub.my_stable_uniform",
    "Fub.my_stable_between_partial",
    "Fub.unshielded_centroid_partial",
    "Fub.reference_gradient_wrong",
    "Fub.reference_stale",
    "Fub.my_stable_loses_doubly_shielded",
    "Fub.unshielded_centroid_wrong"
   ],
   "note": "Proved: the value and first gradient of reference states, coverage, convexity for faces not shielded from both sides, the centroid for fully open faces shielded from one side. The remaining parts are false of the code: reference_gradient_wrong, reference_stale, my_stable_loses_doubly_shielded, unshielded_centroid_wrong. The sources (polygon intersections with CGAL) are inputs."
  },
  {
   "property": "C109",
   "status": "partial",
   "theorems": [
    "Fub.hdf5_compose_partial",
    "Fub.hdf5_zero_is_overwritten",
    "Fub.hdf5_boxes_chain",
    "Fub.hdf5_cut_compose_partial",
    "Fub.hdf5_cut_ranks_add_fractions",
    "Fub.hdf5_cut_box_loses_coarse"
   ],
   "note": "the value of the finest covering patch for all hierarchies and ranks, if it is not zero; a zero is replaced by the coarse value; with cut cells and several ranks volume fractions are added; the cut cell output restricted to a box is incomplete"
  },
  {
   "property": "C110",
   "status": "partial",
   "theorems": [
    "Fub.gather_states_partial",
    "Fub.gather_zero_is_replaced"
   ],
   "note": "the state of the finest cell if it is not zero; a component that is zero is replaced by the one of the coarser level"
  },
  {
   "property": "C111",
   "status": "partial",
   "theorems": [
    "Fub.hdf5_history",
    "Fub.hdf5_history_with_crashes",
    "Fub.hdf5_crash_misaligns",
    "Fub.hdf5_crash_in_create_loses_times",
    "Fub.hdf5_shape_change",
    "Fub.hdf5_shape_change_mixes_cells",
    "Fub.hdf5_reader_round_trip",
    "Fub.hdf5_several_reader_mixes_cells"
   ],
   "note": "proved for outputs of the same extents and for crashes between datasets; after such a crash data and times are shifted against each other; a change of the extents mixes cells or reads behind the fab; the second reader does not reshape. A crash inside of a call of the HDF5 library is not modelled"
  },
  {
   "property": "C112",
   "status": "proved",
   "theorems": [
    "Fub.output_construction_keeps_files",
    "Fub.output_runs_keep_all",
    "Fub.output_names_exhausted"
   ],
   "note": "for the constructors that take program options; the constructors with explicit path do not rename"
  },
  {
   "property": "C113",
   "status": "partial",
   "theorems": [
    "Fub.probe_history",
    "Fub.tube_probes_partial",
    "Fub.tube_probes_are_first_tube",
    "Fub.tube_probes_wrong",
    "Fub.tube_probe_files_not_renamed",
    "Fub.plenum_probe_file_renamed",
    "Fub.output_block_partial",
    "Fub.output_block_no_plenum",
    "Fub.output_block_negative",
    "Fub.output_block_only_first_plenum"
   ],
   "note": "layout of the probe file for all histories; probes of the first tube; other tubes use the probes of the first one, tube files are not renamed, negative block numbers access memory outside of the list"
  },
  {
   "property": "C114",
   "status": "proved",
   "theorems": [
    "Fub.handles_closed_exactly_once",
    "Fub.handle_self_assignment_closes"
   ],
   "note": "invariant over all sequences of operations; self assignment closes the object"
  },
  {
   "property": "C115",
   "status": "partial",
   "theorems": [
    "Fub.muscl_prim_limiter",
    "Fub.muscl_prim_limiter_units",
    "Fub.muscl_prim_predictor",
    "Fub.muscl_prim_consistent",
    "Fub.muscl_prim_positive_partial",
    "Fub.muscl_prim_negative_density",
    "Fub.muscl_prim_mirror_partial",
    "Fub.muscl_prim_masked"
   ],
   "note": "Positivity holds without time step only; the counterexample has half of the stable time step. Mirror symmetry is proved for one and two dimensions (the HLLEM method is not symmetric in three). The scalar versions are not implemented in the code and throw."
  },
  {
   "property": "C116",
   "status": "partial",
   "theorems": [
    "Fub.muscl_char_roundtrip",
    "Fub.muscl_char_predictor",
    "Fub.muscl_char_linear",
    "Fub.muscl_char_eq_prim",
    "Fub.vanLeer_hyps",
    "Fub.muscl_char_consistent",
    "Fub.muscl_char_mirror_partial",
    "Fub.muscl_char_masked",
    "Fub.muscl_char_masked_central"
   ],
   "note": "Mirror symmetry in one and two dimensions. A covered cell switches off the slope for limiters that vanish when their first argument does; for the central slope this is false and a witness is proved."
  },
  {
   "property": "C117",
   "status": "partial",
   "theorems": [
    "Fub.rk3_local_is_global",
    "Fub.rk3_interpolation",
    "Fub.rk3_consistent",
    "Fub.rk3_diffusion_direction",
    "Fub.rk3_stable_dt_partial"
   ],
   "note": "The time step ignores viscosity and conduction, so no stability is claimed. The interpolation to faces is of second order only and not positive (proved). Array version; the scalar version differs by its assertions."
  },
  {
   "property": "C118",
   "status": "proved",
   "theorems": [
    "Fub.burke_mass_action",
    "Fub.burke_equations_balanced",
    "Fub.burke_molar_mass_atoms",
    "Fub.burke_mass_conserved",
    "Fub.burke_atoms_conserved",
    "Fub.burke_inert",
    "Fub.burke_names_injective"
   ],
   "note": "The list of chemical equations in Spec/Chemistry.lean is the mechanism as written in the labels of the generated code. Exact arithmetic."
  },
  {
   "property": "C119",
   "status": "proved",
   "theorems": [
    "Fub.lind_bounds",
    "Fub.burke_rate_coeff_pos",
    "Fub.burke_loss_proportional",
    "Fub.burke_quasi_positive",
    "Fub.burke_small_step_nonneg"
   ],
   "note": "Real arithmetic; the pressure must be positive because the fall-off function takes its logarithm."
  },
  {
   "property": "C120",
   "status": "partial",
   "theorems": [
    "Fub.burke_heat_capacity_bound",
    "Fub.burke_gamma_range",
    "Fub.burke_thermo_lane_partial",
    "Fub.burke_thermo_lane_window",
    "Fub.burke_cp_is_derivative",
    "Fub.burke_enthalpy_drops",
    "Fub.burke_energy_gap",
    "Fub.burke_cv_negative"
   ],
   "note": "The versions differ on [299.999999, 300); the derivative holds up to a relative error of 1e-8 and away from 300 K and 1000 K; the tables jump at 1000 K."
  },
  {
   "property": "C121",
   "status": "partial",
   "theorems": [
    "Fub.reactor_thermo_consistent_partial",
    "Fub.reactor_after_advance",
    "Fub.reactor_stale_after_advance"
   ],
   "note": "False right after Advance: the tables are those of the last temperature at which the ODE solver evaluated the right-hand side (radau.f:1648-1653 returns before evaluating at the final state). Proved for all other histories."
  },
  {
   "property": "C122",
   "status": "partial",
   "theorems": [
    "Fub.set_mass_fractions_spec",
    "Fub.set_mass_fractions_densities",
    "Fub.set_mass_fractions_empty",
    "Fub.mass_fraction_lanes",
    "Fub.mass_fraction_lanes_negative",
    "Fub.set_mole_fractions_spec",
    "Fub.meanX_spec"
   ],
   "note": "The versions agree on non-negative vectors only; a vector without positive entry is accepted and gives zeros."
  },
  {
   "property": "C123",
   "status": "partial",
   "theorems": [
    "Fub.set_pressure_round_trip",
    "Fub.get_mole_fractions_partial",
    "Fub.production_rates_partial",
    "Fub.production_rates_stale",
    "Fub.max_dT_wrong"
   ],
   "note": "GetMoleFractions returns concentrations; production rates are stale after SetDensity and SetPressure; the old temperature in AdvanceAndFindMaxdT is never updated. Negations are proved."
  },
  {
   "property": "C124",
   "status": "proved",
   "theorems": [
    "Fub.ode_rhs_energy",
    "Fub.ode_solution_conserves",
    "Fub.burke_solution_conserves"
   ],
   "note": "Exact solutions of the differential equation; the numerical solver is not modelled. The tables of Burke 2012 satisfy the derivative hypothesis only up to 1e-8 (C120), so for them mass and atoms are proved."
  },
  {
   "property": "C125",
   "status": "partial",
   "theorems": [
    "Fub.composition_text_partial",
    "Fub.composition_duplicate",
    "Fub.composition_malformed_number",
    "Fub.composition_undefined",
    "Fub.composition_exception_state",
    "Fub.composition_line_break"
   ],
   "note": "The number reader of the stream is a parameter which reads back the numbers of the text. Exceptions do not restore the composition, malformed numbers at the end are accepted, a missing number reads an uninitialised variable: witnesses."
  },
  {
   "property": "C126",
   "status": "proved",
   "theorems": [
    "Fub.set_energy_converges",
    "Fub.set_energy_lanes_converge",
    "Fub.set_energy_too_far",
    "Fub.set_energy_gap",
    "Fub.energy_curve_of_slopes",
    "Fub.newton_bracket_best",
    "Fub.newton_stays_in_bracket"
   ],
   "note": "set_energy_gap: over a jump of the tables (1000 K) the iteration accepts a temperature whose energy misses the target"
  },
  {
   "property": "C127",
   "status": "partial",
   "theorems": [
    "Fub.burke_temperature_round_trip_partial",
    "Fub.burke_temperature_lanes_partial",
    "Fub.burke_energy_curve"
   ],
   "note": "missing: temperatures within one kelvin of the seam at 1000 K, below 300 K and above 2500 K; exact real arithmetic"
  },
  {
   "property": "C128",
   "status": "partial",
   "theorems": [
    "Fub.igm_complete_conserves",
    "Fub.igm_complete_history",
    "Fub.igm_last_temperature",
    "Fub.igm_complete_from_reactor",
    "Fub.igm_complete_species_sum",
    "Fub.igm_round_trip_partial",
    "Fub.igm_lanes_round_trip_partial",
    "Fub.igm_set_reactor",
    "Fub.igm_array_is_masked",
    "Fub.igm_array_round_trip_partial"
   ],
   "note": "missing: temperatures around the seam at 1000 K, below 300 K and above 2500 K (C127); exact arithmetic; igm_complete_species_sum: partial densities that do not sum to the density are changed"
  },
  {
   "property": "C129",
   "status": "proved",
   "theorems": [
    "Fub.igm_flux_spec",
    "Fub.igm_flux_vacuum",
    "Fub.igm_flux_species",
    "Fub.igm_rotate_flux",
    "Fub.igm_rotate_complete",
    "Fub.igm_reflect",
    "Fub.igm_var_names_length",
    "Fub.igm_var_names_single",
    "Fub.igm_var_names_species"
   ],
   "note": "igm_flux_vacuum: the scalar flux of a cell without density is not written"
  },
  {
   "property": "C130",
   "status": "partial",
   "theorems": [
    "Fub.kinetic_cells_independent",
    "Fub.kinetic_cell_result",
    "Fub.kinetic_conserves_partial",
    "Fub.kinetic_energy_drift"
   ],
   "note": "the energy is only conserved if the solver evaluated the right-hand side last at the temperature it returns (kinetic_energy_drift is the counterexample); exact arithmetic"
  },
  {
   "property": "C131",
   "status": "partial",
   "theorems": [
    "Fub.radau_integrate_partial",
    "Fub.radau_retry_undefined",
    "Fub.radau_retry_duration",
    "Fub.radau_retry_partial",
    "Fub.radau_retry_twice"
   ],
   "note": "false after the return code -3: wrong pointer, wrong intervals, start from a changed vector; the Fortran kernel is a parameter"
  },
  {
   "property": "C132",
   "status": "partial",
   "theorems": [
    "Fub.reactor_copy_partial",
    "Fub.reactor_copy_tolerances",
    "Fub.reactor_assign_array",
    "Fub.reactor_assign_wrong_tables"
   ],
   "note": "false for the array state after an assignment and for the parameters of the solver after a copy"
  },
  {
   "property": "C133",
   "status": "partial",
   "theorems": [
    "Fub.log_every_line_prefixed",
    "Fub.log_message_recovered",
    "Fub.log_prefix_shows",
    "Fub.log_short_message_lost",
    "Fub.log_channel_filter",
    "Fub.log_console_filter",
    "Fub.log_ranks",
    "Fub.log_old_file_renamed",
    "Fub.log_rank0_destroys_nothing",
    "Fub.log_other_ranks_overwrite"
   ],
   "note": "false for messages of one character (log_short_message_lost) and for the old logs of ranks other than 0 (log_other_ranks_overwrite)"
  },
  {
   "property": "C134",
   "status": "proved",
   "theorems": [
    "Fub.ompLocal_defined_iff",
    "Fub.ompLocal_threads_isolated",
    "Fub.ompLocal_accumulate",
    "Fub.ompLocal_accumulate_zero",
    "Fub.ompLocal_min"
   ],
   "note": "exact arithmetic: in floating point the sum depends on the order within rounding"
  },
  {
   "property": "C135",
   "status": "partial",
   "theorems": [
    "Fub.innerBox_mem",
    "Fub.meanValue_weights",
    "Fub.meanValue_is_mean_partial",
    "Fub.meanValue_multiplied_by_tiles"
   ],
   "note": "false if a cell is a ghost cell of another patch or its patch is visited in several tiles (meanValue_multiplied_by_tiles); meanValue_weights is the value for every decomposition"
  },
  {
   "property": "C136",
   "status": "partial",
   "theorems": [
    "Fub.interp1d_reads_dataset",
    "Fub.interp1d_beyond_last",
    "Fub.interp1d_few_positions",
    "Fub.interp1d_mean_of_positions",
    "Fub.interp1d_bounds",
    "Fub.interp1d_cell_centres_shifted",
    "Fub.interp1d_cell_state"
   ],
   "note": "the mean leaves out the leftmost position of the cell, and a cell with one position gets the value of the next one (interp1d_cell_centres_shifted); datasets with another number of columns are not modelled"
  },
  {
   "property": "C137",
   "status": "partial",
   "theorems": [
    "Fub.option_value",
    "Fub.option_number",
    "Fub.option_direction_unchecked",
    "Fub.options_section",
    "Fub.options_missing_section",
    "Fub.options_bad_section",
    "Fub.script_options",
    "Fub.script_options_leak",
    "Fub.command_line",
    "Fub.option_string"
   ],
   "note": "false for directions, whose range is not checked, and for a second script, which inherits the variables of the first; only integers, floats, strings and dictionaries are modelled"
  },
  {
   "property": "C138",
   "status": "partial",
   "theorems": [
    "Fub.igm_roe_spec",
    "Fub.igm_einfeldt_bounds",
    "Fub.igm_einfeldt_same",
    "Fub.igm_einfeldt_mirror",
    "Fub.igm_einfeldt_masked",
    "Fub.igm_einfeldt_versions_differ"
   ],
   "note": "false that the versions agree: scalar and masked version take half of the speed of sound of the mean state, the array version all of it (igm_einfeldt_versions_differ)"
  },
  {
   "property": "C139",
   "status": "partial",
   "theorems": [
    "Fub.igm_predictor_euler",
    "Fub.igm_face_taylor",
    "Fub.entropyWave_solves",
    "Fub.igm_from_prim_state",
    "Fub.igm_from_prim_lane",
    "Fub.igm_prim_round_trip",
    "Fub.igm_muscl_prim_consistent",
    "Fub.igm_muscl_fraction_bounds",
    "Fub.igm_muscl_lane_sum",
    "Fub.igm_muscl_lane_negative",
    "Fub.igm_muscl_scalar_inert",
    "Fub.igm_muscl_lane_temperature",
    "Fub.igm_muscl_masked_faces",
    "Fub.igm_muscl_masked_closed",
    "Fub.igm_muscl_versions_differ"
   ],
   "note": "false for the array version: wrong sign of the temperature at the right side (igm_muscl_lane_temperature, igm_muscl_versions_differ), negative mass fractions (igm_muscl_lane_negative); false for the scalar version that the fractions sum to one before normalisation (igm_muscl_scalar_inert); a chunk of closed faces is not written (igm_muscl_masked_closed); positivity of reconstructed pressure and temperature is a hypothesis"
  },
  {
   "property": "C140",
   "status": "partial",
   "theorems": [
    "Fub.igm_char_state",
    "Fub.igm_char_quarter_step",
    "Fub.igm_char_species_step",
    "Fub.igm_char_prim_differ",
    "Fub.igm_muscl_char_consistent",
    "Fub.igm_char_fraction_bounds",
    "Fub.igm_char_array_loop"
   ],
   "note": "false that the predictor moves by half a time step: it moves by a quarter (igm_char_quarter_step, igm_char_species_step); the array version leaves its arrays (igm_char_array_loop), so only its loop is modelled; positivity of the reconstructed density and pressure is a hypothesis"
  },
  {
   "property": "C141",
   "status": "proved",
   "theorems": [
    "Fub.stencil_range",
    "Fub.flux_sweep_all",
    "Fub.patch_split_step",
    "Fub.patch_steps_level",
    "Fub.decomposition_independent",
    "Fub.default_ghost_cells",
    "Fub.too_few_ghost_cells",
    "Fub.strang_direction_counts",
    "Fub.nested_strang_ghost_cells",
    "Fub.default_ghost_cells_source"
   ],
   "note": "the physical boundary condition that is applied between split steps, and the interpolation at coarse-fine borders (which happens once before the step), are not part of this model; the condition on the ghost cells is necessary (too_few_ghost_cells)"
  },
  {
   "property": "C142",
   "status": "partial",
   "theorems": [
    "Fub.cut_reflective_fill",
    "Fub.cut_outflow_fill",
    "Fub.cut_isentropic_fill",
    "Fub.cut_constant_fill",
    "Fub.expansion_fill",
    "Fub.section_reflective_fill_partial",
    "Fub.section_edge_fill_partial",
    "Fub.section_level_wrong"
   ],
   "note": "false for sections on refined levels: the section is used with the same indices on every level and overwrites cells of the domain (section_level_wrong)"
  },
  {
   "property": "C143",
   "status": "partial",
   "theorems": [
    "Fub.setPressureIsentropic_spec",
    "Fub.odeRhsSetP_eq",
    "Fub.isentropic_exact",
    "Fub.isentropic_perfect",
    "Fub.igmExpansion1d_state",
    "Fub.isoVelocity_partial",
    "Fub.isoVelocity_wrong",
    "Fub.igmGhostCut_rest"
   ],
   "note": "false: at equal pressure the flow is reversed, outflow at the left side is slowed down or reversed (isoVelocity_wrong); with embedded boundary the ghost state of a subsonic state is always at rest and not isentropic (igmGhostCut_rest); the entropy is proved for an exact solution of the ODE"
  },
  {
   "property": "C144",
   "status": "proved",
   "theorems": [
    "Fub.lin_energy",
    "Fub.lin_symmetric",
    "Fub.lin_solvable",
    "Fub.lin_kernel",
    "Fub.lin_solvable_incompressible",
    "Fub.lin_sum_zero",
    "Fub.lin_consistent",
    "Fub.lin_diag",
    "Fub.lin_jacobi_diag",
    "Fub.lin_jacobi_fixed",
    "Fub.lin_gs_node",
    "Fub.lin_gs_sweep",
    "Fub.lin_normalize_system"
   ],
   "note": "all parts, exact arithmetic, one level"
  },
  {
   "property": "C145",
   "status": "partial",
   "theorems": [
    "Fub.lin_apply_flux",
    "Fub.lin_projection_partial",
    "Fub.lin_projection_wrong",
    "Fub.lin_diag_ha",
    "Fub.lin_ha_partial",
    "Fub.lin_ha_const",
    "Fub.lin_ha_normalize_wrong",
    "Fub.res_cf_partial",
    "Fub.res_cf_wrong"
   ],
   "note": "false: the corrected velocity keeps a divergence (lin_projection_wrong), the operator of the coarse multigrid levels does not annihilate constants (lin_ha_const) and its normalisation is 8/3 of the diagonal (lin_ha_normalize_wrong), the residual between levels uses another operator (res_cf_wrong)"
  },
  {
   "property": "C146",
   "status": "proved",
   "theorems": [
    "Fub.composite_total",
    "Fub.regrid_means",
    "Fub.regrid_conserves",
    "Fub.regrid_conserves_needs_means",
    "Fub.create_ratio_wrong",
    "Fub.initialize_means"
   ],
   "note": "all parts, exact arithmetic; the hypothesis that a created level has ratio two is necessary (create_ratio_wrong)"
  },
  {
   "property": "C147",
   "status": "partial",
   "theorems": [
    "Fub.regrid_keeps_cells",
    "Fub.regrid_complete_partial",
    "Fub.regrid_complete_wrong",
    "Fub.regrid_complete_witness",
    "Fub.initialize_complete_wrong"
   ],
   "note": "proved for regrids which remake and remove levels; false for created levels, whose components outside of the conserved ones are uninitialised memory (regrid_complete_wrong), and for the cells averaged by the initialisation (initialize_complete_wrong)"
  },
  {
   "property": "C148",
   "status": "proved",
   "theorems": [
    "Fub.block_run",
    "Fub.uncoupled_run",
    "Fub.mb_clocks",
    "Fub.mb_stable_dt",
    "Fub.mb_pre_level",
    "Fub.mb_source",
    "Fub.mb_source_dt",
    "Fub.mb_source_guarded",
    "Fub.exchange_before_fill"
   ],
   "note": "all parts; what the coupling computes is arbitrary; the refinement ratios are those of the first plenum"
  },
  {
   "property": "C149",
   "status": "partial",
   "theorems": [
    "Fub.mb_no_bad_partial",
    "Fub.mb_bad",
    "Fub.mb_tube_times_wrong"
   ],
   "note": "proved if all blocks have the same levels throughout; false otherwise (mb_bad), and the stored times of the tubes can be wrong after a regrid (mb_tube_times_wrong)"
  },
  {
   "property": "C150",
   "status": "proved",
   "theorems": [
    "Fub.seventeen_digits",
    "Fub.checkpoint_round_trip",
    "Fub.cut_checkpoint_round_trip",
    "Fub.checkpoint_all_or_nothing",
    "Fub.blocks_round_trip",
    "Fub.blocks_fresh_interrupted",
    "Fub.valve_round_trip",
    "Fub.ignition_round_trip",
    "Fub.restart_first_level",
    "Fub.restart_continues",
    "Fub.restart_from_file"
   ],
   "note": "all parts, for hierarchies without node and face data; the order of completion of the files of one checkpoint is arbitrary, AMReX' own files of a level are complete, torn or absent"
  },
  {
   "property": "C151",
   "status": "partial",
   "theorems": [
    "Fub.six_digits_lose",
    "Fub.checkpoint_forgets_nodes_partial",
    "Fub.cut_checkpoint_levels_partial",
    "Fub.checkpoint_too_many_levels_partial",
    "Fub.checkpoint_ratio_unchecked_partial",
    "Fub.blocks_mixed_partial",
    "Fub.ignition_length_partial",
    "Fub.saving_duration",
    "Fub.restart_forgets_opening_partial",
    "Fub.restart_skips_regrid_partial"
   ],
   "note": "false of the code in every part; the theorems say exactly what happens instead (and that the default precision of a stream would lose time points)"
  },
  {
   "property": "C152",
   "status": "proved",
   "theorems": [
    "Fub.debug_snapshot_directory",
    "Fub.debug_partitions",
    "Fub.debug_gather_columns",
    "Fub.debug_save",
    "Fub.debug_flush_complete",
    "Fub.debug_face_average_linear",
    "Fub.debug_cycle"
   ],
   "note": "all parts; fields have at least one level, AMReX' plot file writer is not modelled"
  },
  {
   "property": "C153",
   "status": "partial",
   "theorems": [
    "Fub.debug_names_unique_partial",
    "Fub.debug_names_not_unique",
    "Fub.debug_directories_distinct_partial",
    "Fub.debug_directories_collide",
    "Fub.debug_gather_geometry"
   ],
   "note": "false of the code in general; proved for names none of which is a repeated name followed by an underscore and a number, and for directories as long as not both the name and the name with -0 are in use; the collisions are proved"
  },
  {
   "property": "C154",
   "status": "proved",
   "theorems": [
    "Fub.view_components",
    "Fub.state_store_load",
    "Fub.subview_components",
    "Fub.pointer_components",
    "Fub.array_load_lanes",
    "Fub.loadN_lanes",
    "Fub.storeN_lanes"
   ],
   "note": "for equations with fewer dimensions than AMReX under the hypothesis that the Fab has one cell in the other directions or all variables are scalars (see C155)"
  },
  {
   "property": "C155",
   "status": "partial",
   "theorems": [
    "Fub.vector_views_wrong",
    "Fub.row_count_partial",
    "Fub.row_count_vector",
    "Fub.row_components"
   ],
   "note": "false of the code in general; proved if the first variable is a scalar, and in C154 for Fabs with one cell in the other directions"
  },
  {
   "property": "C156",
   "status": "proved",
   "theorems": [
    "Fub.cut_sweep_schedule",
    "Fub.cut_sweep_tiles",
    "Fub.cut_sweep_patches_agree"
   ],
   "note": "the fluxes from the reconstructed stencils are given functions (they read only data that the sweep does not write; see C107, C108 for the stencils)"
  },
  {
   "property": "C157",
   "status": "partial",
   "theorems": [
    "Fub.cut_sweep_race",
    "Fub.cut_sweep_patches_disagree",
    "Fub.cut_sweep_first_face",
    "Fub.cut_sweep_schedule_partial"
   ],
   "note": "false of the code: a thread that is interrupted between loads and store of a combination leaves a stale flux, and without ghost faces the shielded fluxes of the first and last face of a patch are never computed; proved for uninterrupted combinations"
  },
  {
   "property": "C158",
   "status": "proved",
   "theorems": [
    "Fub.cell_polygon_fluid",
    "Fub.hgrid_polygons",
    "Fub.fan_centroid_edges",
    "Fub.fan_centroid_start",
    "Fub.fan_centroid_inside",
    "Fub.stored_points"
   ],
   "note": "two space dimensions; exact arithmetic; the convex hull and the intersection of polygons are operations of CGAL and not modelled (the theorem about the polygon of a cell speaks about the hull as a set)"
  },
  {
   "property": "C159",
   "status": "partial",
   "theorems": [
    "Fub.hgrid_mirror_leaves",
    "Fub.hgrid_mirror_distance_partial"
   ],
   "note": "false of the code: a slightly sloped wall next to a cell face has a mirror region that leaves the 3x3 neighbourhood; proved: the region stays within a distance of the centre of the wall that only depends on the cell size"
  },
  {
   "property": "C160",
   "status": "proved",
   "theorems": [
    "Fub.finest_level_sees_tubes"
   ],
   "note": "one plenum; the number of levels does not change in a step; the Riemann problems and the data of the tube are given functions"
  },
  {
   "property": "C161",
   "status": "partial",
   "theorems": [
    "Fub.coarse_levels_lose_tubes",
    "Fub.coupled_box_misplaced",
    "Fub.coupled_box_partial"
   ],
   "note": "false of the code: on every level with a finer level the state behind the wall is zero and the reference state that of a closed wall when the fluxes are computed, and on finer levels the masked cells of a sloped connection lie outside of its region; proved: the masked cells are right on the coarsest level, and C160 for the finest"
  },
  {
   "property": "C162",
   "status": "partial",
   "theorems": [
    "Fub.eb_initialize_means",
    "Fub.eb_initialize_bounds",
    "Fub.eb_coarsen_partial",
    "Fub.eb_coarsen_plain",
    "Fub.eb_coarsen_wrong"
   ],
   "note": "proved for the initialisation; for the coarsening during a run only in cells whose fine cells have equal volume fractions, it is false at walls: the scratch data have no factory for embedded boundaries, so all fine cells count alike (eb_coarsen_plain, eb_coarsen_wrong)"
  },
  {
   "property": "C163",
   "status": "partial",
   "theorems": [
    "Fub.eb_regrid_means",
    "Fub.eb_composite_total",
    "Fub.eb_regrid_partial",
    "Fub.eb_flat_wall",
    "Fub.eb_geometries_differ",
    "Fub.eb_regrid_wrong",
    "Fub.eb_wall_fraction"
   ],
   "note": "the means are kept for all geometries, the amount if the levels have one geometry (true for flat walls along the mesh, eb_flat_wall); false for curved walls because every level is built on its own (eb_geometries_differ, eb_regrid_wrong)"
  },
  {
   "property": "C164",
   "status": "proved",
   "theorems": [
    "Fub.eb_base_grids",
    "Fub.eb_base_grids_gas"
   ],
   "note": "all parts"
  },
  {
   "property": "C165",
   "status": "proved",
   "theorems": [
    "Fub.control_file_history",
    "Fub.control_file_crash",
    "Fub.control_restarts_keep_all",
    "Fub.control_names_exhausted"
   ],
   "note": "all parts, as long as one of the numbered names below the largest int is free; otherwise the run before is overwritten (control_names_exhausted)"
  },
  {
   "property": "C166",
   "status": "partial",
   "theorems": [
    "Fub.axial_amr_conserves_partial",
    "Fub.axial_amr_not_conservative",
    "Fub.axial_coarsen_not_conservative",
    "Fub.straight_coarsen_conserves"
   ],
   "note": "proved if the tube is straight in every uncovered cell next to refined cells; in general it fails (axial_amr_not_conservative, axial_coarsen_not_conservative)"
  },
  {
   "property": "C167",
   "status": "proved",
   "theorems": [
    "Fub.rebind_exact",
    "Fub.factory_selects",
    "Fub.factory_accepts_only",
    "Fub.cut_factory_same",
    "Fub.factory_conservative"
   ],
   "note": "all parts, for equations of rank one (the only ones that are instantiated without embedded boundaries)"
  },
  {
   "property": "C168",
   "status": "proved",
   "theorems": [
    "Fub.axial_sweep_faces",
    "Fub.axial_step_balance",
    "Fub.pressure_layout"
   ],
   "note": "all parts, for patches with at least one face whose arrays do not overlap (FluxViews, FluxNoAlias)"
  },
  {
   "property": "C169",
   "status": "partial",
   "theorems": [
    "Fub.samrai_data_never_changes",
    "Fub.samrai_store_iff"
   ],
   "note": "the property is false of the code: the two theorems are the exact condition under which it holds and its failure for all call sequences"
  },
  {
   "property": "C170",
   "status": "partial",
   "theorems": [
    "Fub.samrai_fill_source",
    "Fub.samrai_fill_iff",
    "Fub.samrai_fill_first_partial"
   ],
   "note": "true for the first variable, false for all others (samrai_fill_iff)"
  },
  {
   "property": "C171",
   "status": "partial",
   "theorems": [
    "Fub.samrai_no_reflux"
   ],
   "note": "false of the code; the theorem is its negation"
  },
  {
   "property": "C172",
   "status": "partial",
   "theorems": [
    "Fub.samrai_pre_advance",
    "Fub.samrai_clock",
    "Fub.samrai_restart_loses_time"
   ],
   "note": "true for simulations that start at time zero; negations for restarts and for regridding of the coarsest level"
  },
  {
   "property": "C173",
   "status": "partial",
   "theorems": [
    "Fub.samrai_ratio",
    "Fub.samrai_tags",
    "Fub.samrai_constant_box"
   ],
   "note": "tags proved; the ratio holds if and only if the option is two. SAMRAI's own box generation is not modelled"
  },
  {
   "property": "C174",
   "status": "partial",
   "theorems": [
    "Fub.samrai_grid_copies",
    "Fub.samrai_context_copy_shares",
    "Fub.samrai_stale_boundaries"
   ],
   "note": "true of copy construction of the gridding algorithm; negations for the rest"
  },
  {
   "property": "C175",
   "status": "proved",
   "theorems": [
    "Fub.samrai_view",
    "Fub.samrai_view_scalar",
    "Fub.samrai_view_throws"
   ],
   "note": "all parts; SAMRAI's memory layout (first index fastest, components outermost) is assumed as documented (samElem)"
  },
  {
   "property": "C176",
   "status": "partial",
   "theorems": [
    "Fub.samrai_update_cells_partial",
    "Fub.samrai_update_overrun",
    "Fub.samrai_update_noop"
   ],
   "note": "which elements are updated is proved for the maximum dimension; that these are not the elements of the state is shown by the other two"
  },
  {
   "property": "C177",
   "status": "partial",
   "theorems": [
    "Fub.samrai_faces",
    "Fub.samrai_flux_storage"
   ],
   "note": "all faces but the last; exact condition for the stores"
  },
  {
   "property": "C178",
   "status": "proved",
   "theorems": [
    "Fub.samrai_cell_coordinate",
    "Fub.samrai_cell_coordinate_single",
    "Fub.samrai_coordinates_agree",
    "Fub.samrai_domain"
   ],
   "note": "all parts, in exact arithmetic"
  },
  {
   "property": "C179",
   "status": "proved",
   "theorems": [
    "Fub.samrai_ids_distinct",
    "Fub.samrai_register_again",
    "Fub.samrai_register_conflict",
    "Fub.samrai_prefix_collision"
   ],
   "note": "all parts; the variable database is modelled by its documented contract"
  },
  {
   "property": "C180",
   "status": "proved",
   "theorems": [
    "Fub.valveAir_spec",
    "Fub.valveFuel_spec",
    "Fub.withFuel_ratio",
    "Fub.MixtureAt.unique",
    "Fub.MixtureAt.content",
    "Fub.valveAir_twice",
    "Fub.valveFuel_twice",
    "Fub.pressureValve_fill",
    "Fub.valve_uniform_gas",
    "Fub.pressureValve_no_boundary",
    "Fub.valve_changes_massflow",
    "Fub.pressureValve_unfilled"
   ],
   "note": "all parts, in real arithmetic. valve_uniform_gas is the whole boundary with the Burke mechanism and without hypotheses about intermediate results; the last two theorems are the limits of the property"
  },
  {
   "property": "C181",
   "status": "partial",
   "theorems": [
    "Fub.massflowGhost_spec",
    "Fub.massflow_filled",
    "Fub.massflow_unfilled",
    "Fub.massflow_partly_covered",
    "Fub.massflow_box_not_refined"
   ],
   "note": "state and cells proved for covered boxes; the flux for the lower side, by C82; for the upper side see massflow_right_wrong; the other theorems show what happens on other levels, where the property is false"
  },
  {
   "property": "C182",
   "status": "proved",
   "theorems": [
    "Fub.cutStableDt_spec",
    "Fub.cutStableDt_mem",
    "Fub.hllMaskedDt_spec",
    "Fub.cutLevelDt_le",
    "Fub.cut_step_stable",
    "Fub.cut_step_positive",
    "Fub.cut_step_closed",
    "Fub.cut_step_attained",
    "Fub.cut_step_all_closed"
   ],
   "note": "all parts, in exact arithmetic, for HLL methods and methods that delegate to them; the speeds of a stencil are a parameter (see the properties of the signal speeds). cutStableDt_spec holds for every base method"
  },
  {
   "property": "C183",
   "status": "proved",
   "theorems": [
    "Fub.cutRegularFluxes_spec",
    "Fub.muscl2Masked_covered",
    "Fub.muscl2Masked_sides",
    "Fub.muscl2Lane_reads",
    "Fub.cut_fluxes_ignore_covered"
   ],
   "note": "all parts, for non-empty views without aliasing; the masked base method, the gradient and the reconstruction are parameters. What NaN values in covered cells do inside the masked base methods is not modelled"
  },
  {
   "property": "C184",
   "status": "proved",
   "theorems": [
    "Fub.cutCompleteRow_spec",
    "Fub.cutCompleteSimd_spec",
    "Fub.cutCompleteScalar_spec",
    "Fub.cutCompleteLevel_gas",
    "Fub.cutCompleteLevelScalar_spec",
    "Fub.cut_complete_agree",
    "Fub.gas_covered_zero",
    "Fub.gas_complete_level",
    "Fub.gas_covered_tile",
    "Fub.cut_complete_copies"
   ],
   "note": "all parts; the statement about covered cells is proved for the version without vectors and refuted for the one with vectors. The row iteration is taken from C23"
  },
  {
   "property": "C185",
   "status": "proved",
   "theorems": [
    "Fub.bcDoit_spec",
    "Fub.impose_neumann",
    "Fub.dot_mask",
    "Fub.dirichlet_mask",
    "Fub.nodal_mask",
    "Fub.wall_projection",
    "Fub.wall_green",
    "Fub.wall_energy",
    "Fub.wall_symmetric",
    "Fub.wall_compatible",
    "Fub.wall_unique",
    "Fub.wall_cross_not_conservative",
    "Fub.ghost_mirror"
   ],
   "note": "all parts; the statement with cross coefficients is refuted. The global identities are for a domain of one patch without refinement; the multigrid iteration itself is not part of it"
  },
  {
   "property": "C186",
   "status": "partial",
   "theorems": [
    "Fub.ghosts_current",
    "Fub.ghosts_synced",
    "Fub.refs_current_partial",
    "Fub.no_subcycling_ghosts_partial",
    "Fub.no_subcycling_refs",
    "Fub.regrid_frequency_stale_ghosts",
    "Fub.ghost_refs_stale",
    "Fub.no_subcycling_stale_ghosts"
   ],
   "note": "the true parts are proved in full, the false parts are refuted by concrete runs. Boundary conditions with a memory or an explicit time are not covered by the fill functions"
  },
  {
   "property": "C187",
   "status": "partial",
   "theorems": [
    "Fub.tube_inflow",
    "Fub.tube_outflow",
    "Fub.tube_mean",
    "Fub.tube_fuel",
    "Fub.plenum_mass",
    "Fub.coupled_mass",
    "Fub.turbine_flux_partial",
    "Fub.turbine_flux_offset",
    "Fub.turbine_flux_wrong",
    "Fub.turbine_flux_doubled",
    "Fub.turbine_state",
    "Fub.plenum_flows",
    "Fub.tube_energy"
   ],
   "note": "the tubes are proved in full. The mass flow to the turbine is taken at the wrong faces: what is measured, its exact difference to the flow through the boundary and witnesses are proved. The step of the tube is taken to be a conservative update with the fluxes of the coarsest level"
  },
  {
   "property": "C188",
   "status": "partial",
   "theorems": [
    "Fub.turbine_cellwise",
    "Fub.turbine_average_massflow",
    "Fub.turbine_outer_state",
    "Fub.turbine_outer_stops",
    "Fub.turbine_same_total",
    "Fub.turbine_inner_partial",
    "Fub.inner_demand_differs",
    "Fub.turbine_level_wrong",
    "Fub.turbine_section_ignored",
    "Fub.turbine_section_wrong",
    "Fub.exact_reaches",
    "Fub.volume_average",
    "Fub.volume_average_closed",
    "Fub.volume_average_range",
    "Fub.cut_massflow_fill"
   ],
   "note": "three modes are proved to let the same total pass where the level covers the box of the average. False for the averaged inner state (another demand), on levels that do not cover the box (the demand shrinks by the covered fraction), and the modes with an averaged state write the whole side instead of the section; all three are proved for what the code does. The accuracy of the transformation is a hypothesis, met by the exact Riemann problem (exact_reaches)"
  },
  {
   "property": "C189",
   "status": "partial",
   "theorems": [
    "Fub.helm_history",
    "Fub.helm_prepare_consistent",
    "Fub.helm_sigma_range",
    "Fub.helm_finest_operator",
    "Fub.helm_coarse_null",
    "Fub.helm_coarse_ignores",
    "Fub.helm_cross_ghosts",
    "Fub.helm_harmonic_operator_wrong",
    "Fub.helm_coarse_operator"
   ],
   "note": "proved for the coefficient on all levels and for the operator of the finest multigrid level without harmonic averages. False for the coarser multigrid levels: without harmonic averages their cross coefficients and diagonal are never allocated and applying the operator dereferences a null pointer; with harmonic averages they are left out, and the ghost cells of the cross coefficients of the finest level stay empty. All of this is proved for what the code does"
  },
  {
   "property": "C190",
   "status": "partial",
   "theorems": [
    "Fub.composite_split",
    "Fub.composite_weak",
    "Fub.composite_compatible",
    "Fub.composite_constant",
    "Fub.inflow_low",
    "Fub.inflow_high_wrong"
   ],
   "note": "proved in the plane, away from walls and Dirichlet sides, for any number of fine grids. The statement about inflow is proved for the left and lower side and false for the right and upper side (inflow_high_wrong). Not proved: periodic images, walls that cut the border between the levels, three dimensions."
  },
  {
   "property": "C191",
   "status": "partial",
   "theorems": [
    "Fub.reflux_fine_part",
    "Fub.reflux_gradient_partial",
    "Fub.reflux_wrong",
    "Fub.reflux_diagonal_wrong",
    "Fub.reflux_elsewhere"
   ],
   "note": "proved inside and outside of the fine level and, between the levels, for the part of the fine level (all fine pressures, all coefficients) and for affine coarse pressures. False between the levels for other coarse pressures (reflux_wrong) and with a diagonal (reflux_diagonal_wrong). Not modelled: periodic images, three dimensions, the cross coefficients there (the kernels do not read them)."
  },
  {
   "property": "C192",
   "status": "partial",
   "theorems": [
    "Fub.joint_runs",
    "Fub.joint_conserves",
    "Fub.joint_frame",
    "Fub.valve_fluxes",
    "Fub.tube_gain",
    "Fub.joint_missing_level",
    "Fub.joint_unreached",
    "Fub.joint_rest_wrong",
    "Fub.joint_upper_wrong",
    "Fub.sideways_uncoupled"
   ],
   "note": "proved for joints in the first direction at the lower side of a plenum whose patches on the level cover the joint. False at the upper side (joint_upper_wrong), if the patches of the level do not reach the joint (joint_unreached, joint_rest_wrong), in the other directions (sideways_uncoupled) and if only one of the blocks has the level (joint_missing_level). The tiles of the plenum's faces are assumed disjoint."
  },
  {
   "property": "C193",
   "status": "partial",
   "theorems": [
    "Fub.tube_closed",
    "Fub.tube_open",
    "Fub.plenum_closed",
    "Fub.plenum_open",
    "Fub.wrap_base",
    "Fub.wrap_last",
    "Fub.plenum_unset",
    "Fub.fuel_changes_inside",
    "Fub.fuel_depends_on_patches"
   ],
   "note": "proved for closed valves and for valves that are open for air, or none. False for a valve that is open for fuel: it changes cells inside of the tube (fuel_changes_inside), which ones depends on the patches (fuel_depends_on_patches). Ghost cells of the plenum are copied also where no state is stored (plenum_unset)."
  },
  {
   "property": "C194",
   "status": "proved",
   "theorems": [
    "Fub.smooth_gs_converges",
    "Fub.smooth_jacobi_converges",
    "Fub.jacobi_mode",
    "Fub.jacobi_diverges",
    "Fub.gs_rotation_diverges"
   ],
   "note": "The conditions are sharp in the following sense: Jacobi diverges in cells that are thinner than the square root of three (jacobi_diverges), and with cross coefficients (rotation) Gauss-Seidel can diverge (gs_rotation_diverges). One patch with fixed ghost nodes, two dimensions, exact numbers."
  },
  {
   "property": "C195",
   "status": "partial",
   "theorems": [
    "Fub.probe_run_files",
    "Fub.probe_rows",
    "Fub.gas_probe_rows",
    "Fub.plenum_probe_one",
    "Fub.tube_probe_seen",
    "Fub.plena_share_file",
    "Fub.no_plenum_undefined",
    "Fub.gas_no_probes_undefined",
    "Fub.plenum_probes_scrambled",
    "Fub.tube_probe_outside",
    "Fub.probe_nonregular"
   ],
   "note": "proved for one plenum with any number of tubes. False for several plena: they share one file (plena_share_file) and their coordinates are mixed up (plenum_probes_scrambled); without plenum or without probes the output divides by zero (no_plenum_undefined, gas_no_probes_undefined); tubes that the option n_tubes does not count read behind the array (tube_probe_outside)."
  },
  {
   "property": "C196",
   "status": "partial",
   "theorems": [
    "Fub.gradient_sweeps",
    "Fub.gradient_space",
    "Fub.gradient_plane_partial",
    "Fub.gradient_plane_undefined",
    "Fub.gradient_blocks_undefined",
    "Fub.gradient_erased_groups"
   ],
   "note": "proved on single blocks in three dimensions for Godunov and Strang splitting, and for every list of sweeps. False in two dimensions, where the third reference gradient is read beyond the array (gradient_plane_undefined; gradient_plane_partial shows the same claim with a longer array), for coupled blocks, whose contexts drop the call that computes the gradients (gradient_blocks_undefined), and for a type-erased Strang splitting in three dimensions, whose reference states are renewed in the middle of sweeps (gradient_erased_groups). Cut cells whose reference state cannot be integrated are the subject of C108 (reference_stale)."
  },
  {
   "property": "C197",
   "status": "proved",
   "theorems": [
    "Fub.lin_smooth_gs_converges",
    "Fub.lin_smooth_jacobi_converges",
    "Fub.lin_gs_list_converges"
   ],
   "note": "One patch with fixed ghost nodes, two dimensions, exact numbers, coefficients with one component (no harmonic averages)."
  },
  {
   "property": "C198",
   "status": "partial",
   "theorems": [
    "Fub.tc_consistent",
    "Fub.tc_gas_law_partial",
    "Fub.tc_thermo_partial",
    "Fub.tc_energy_partial",
    "Fub.tc_set_energy_state",
    "Fub.tc_set_energy_converges",
    "Fub.tc_set_energy_memoryless",
    "Fub.tc_advance_state",
    "Fub.tc_advance_drift",
    "Fub.tc_pressure_stale",
    "Fub.tc_text_stale",
    "Fub.tc_energy_stale",
    "Fub.tc_thermo_uninitialised",
    "Fub.tc_isentropic_stale",
    "Fub.tc_isentropic_slope"
   ],
   "note": "The missing parts are false of the code: the density after SetPressure, SetMoleFractions of a text and SetPressureIsentropic, the energies after SetInternalEnergy and UpdateThermoState at the cached temperature, and the first update with uninitialised memory. The integrator is a parameter; its source term is taken to depend on density, temperature and fractions only."
  },
  {
   "property": "C199",
   "status": "partial",
   "theorems": [
    "Fub.mex_advance_partial",
    "Fub.mex_advance_energy_partial",
    "Fub.mex_set_tpx_partial",
    "Fub.mex_equal_cells_differ",
    "Fub.mex_enthalpies_ignore",
    "Fub.mex_enthalpies_wrong",
    "Fub.mex_mechanism_first",
    "Fub.mex_fractions"
   ],
   "note": "The missing parts are false of the code: the energy of a cell that ends with the same temperature as the cell before, the enthalpies at a given temperature and the choice of a second mechanism."
  },
  {
   "property": "C200",
   "status": "partial",
   "theorems": [
    "Fub.second_blocks_ready",
    "Fub.second_output_current",
    "Fub.paired_restore_state",
    "Fub.first_plena_ready_partial",
    "Fub.first_output_current_partial",
    "Fub.first_tubes_never_ready",
    "Fub.first_output_frozen",
    "Fub.first_output_wrong"
   ],
   "note": "Proved for the second version of the context (as many tubes as plena or more, the known loss of plena by its copies is C97). False of the first version: a new or copied tube is never prepared (`first_tubes_never_ready`), and after any history with a restored backup the output never changes again (`first_output_frozen`, with a concrete run in `first_output_wrong`). The first version has the property for the plena and until the first restored backup. The hierarchies are values of an arbitrary type and a step is an arbitrary function of all of them."
  },
  {
   "property": "C201",
   "status": "partial",
   "theorems": [
    "Fub.matlab_grid_partial",
    "Fub.matlab_grid_planes",
    "Fub.mat_compose_exact",
    "Fub.mat_file_reads",
    "Fub.mat_data_file",
    "Fub.matlab_grid_3d_wrong"
   ],
   "note": "Proved in up to two dimensions for levels of disjoint patches whose domains refine each other and whose component zero does not vanish (the code takes a zero density for an uncovered cell, as in C109). In three dimensions `matlab_grid_planes` says exactly what is written: the lowest plane is right, elsewhere cells that the finest level does not cover are zero; `matlab_grid_3d_wrong` is a concrete case. The text format of the header numbers is not modelled."
  },
  {
   "property": "C202",
   "status": "partial",
   "theorems": [
    "Fub.matlab_text_line",
    "Fub.matlab_text_lines",
    "Fub.matlab_text_header_wrong"
   ],
   "note": "Proved for the lines of numbers, for any way of printing numbers as words of at most 22 characters with an optional leading blank. The part about the line of names is false for every list of species (`matlab_text_header_wrong`)."
  },
  {
   "property": "C203",
   "status": "partial",
   "theorems": [
    "Fub.slanted_average_partial",
    "Fub.slanted_average_range",
    "Fub.slanted_full_cells_partial",
    "Fub.slanted_front_ignored",
    "Fub.slanted_front_wrong",
    "Fub.slanted_no_wall",
    "Fub.slanted_ghosts",
    "Fub.slanted_ghosts_kept"
   ],
   "note": "The average is proved to be the mean over the cells of the connection for every distribution, within the bounds of the data, and the ghost cells are characterised. The part of the statement about the cell in front of the wall is false of the code: the result of Shift is dropped, so the cell in front never contributes (slanted_front_ignored, slanted_front_wrong); slanted_full_cells_partial gives the cases in which the result is still right."
  },
  {
   "property": "C204",
   "status": "partial",
   "theorems": [
    "Fub.masked_limiters",
    "Fub.muscl_vector_open",
    "Fub.muscl_vector_covered",
    "Fub.muscl_vector_closed",
    "Fub.muscl_godunov_closed",
    "Fub.muscl_gas_open",
    "Fub.muscl_gas_uniform",
    "Fub.muscl_gas_closed_nan"
   ],
   "note": "All of the statement is proved for open faces, and for closed faces with the Godunov method or in vectors without an open face. For closed faces with the HLL method and the perfect gas the statement is false: muscl_gas_closed_nan shows that the flux of a closed face is not a number as soon as another face of the same vector is open."
  },
  {
   "property": "C205",
   "status": "proved",
   "theorems": [
    "Fub.coarsen_refine",
    "Fub.refine_coarsenable",
    "Fub.regular_space_levels",
    "Fub.regular_space_required",
    "Fub.regular_space_unknown"
   ],
   "note": "That AMReX can build the levels of an all-regular geometry is the hypothesis `hok`; integers do not overflow."
  },
  {
   "property": "C206",
   "status": "partial",
   "theorems": [
    "Fub.cvode_normal",
    "Fub.cvode_observed",
    "Fub.cvode_no_step",
    "Fub.cvode_flags_ignored",
    "Fub.cvode_hangs",
    "Fub.cvode_sizes",
    "Fub.cvode_clone",
    "Fub.cvode_observer_overshoots"
   ],
   "note": "Proved without observer when the library succeeds (cvode_normal), and the order and values of the observed steps (cvode_observed). The rest is false of the code: an observed call returns the solution at the last internal step, beyond t0 + dt (cvode_observer_overshoots); return codes are ignored (cvode_flags_ignored), so that failures look like results and an observed call that cannot get on never returns (cvode_hangs); vectors of another size are written behind the end or completed with leftovers (cvode_sizes); clones lose the root function (cvode_clone)."
  },
  {
   "property": "C207",
   "status": "partial",
   "theorems": [
    "Fub.factory_first",
    "Fub.factory_order",
    "Fub.factory_solvers",
    "Fub.factory_cvode_default"
   ],
   "note": "All of it is proved except the last sentence, which is false: the default options have the type RADAU, and the entry of CVode asserts its own type and then reads a member the object does not have (factory_cvode_default)."
  },
  {
   "property": "C208",
   "status": "proved",
   "theorems": [
    "Fub.patch_transmissive",
    "Fub.patch_transmissive_order",
    "Fub.patch_transmissive_fallback",
    "Fub.patch_transmissive_small"
   ],
   "note": "The load outside of the view, which patch_transmissive_small shows for patches without interior cells, is the assertion of the view."
  },
  {
   "property": "C209",
   "status": "partial",
   "theorems": [
    "Fub.advective_fluxes_fit",
    "Fub.advective_fluxes_regrid",
    "Fub.advective_fluxes_copy_partial",
    "Fub.advective_fluxes_copy_not_deep"
   ],
   "note": "The last sentence holds for the cells and faces of the boxes only: values in ghost cells are not copied, which advective_fluxes_copy_not_deep shows. Periodic images are left out of the copy."
  },
  {
   "property": "C210",
   "status": "proved",
   "theorems": [
    "Fub.state_component_get",
    "Fub.state_component_set",
    "Fub.state_component_count",
    "Fub.state_component_range"
   ],
   "note": ""
  },
  {
   "property": "C211",
   "status": "partial",
   "theorems": [
    "Fub.block_gridding_boundaries",
    "Fub.block_gridding_valves",
    "Fub.block_gridding_regrid",
    "Fub.block_gridding_copy_partial",
    "Fub.block_gridding_copy_shares_valves"
   ],
   "note": "Independence holds for tubes and plena; the valves are shared with the original, which block_gridding_copy_shares_valves shows. The arrays inside of a boundary are not modelled here."
  },
  {
   "property": "C212",
   "status": "proved",
   "theorems": [
    "Fub.scratch_level_step",
    "Fub.scratch_levels"
   ],
   "note": "The calls themselves are made by AMReX and are arbitrary here."
  }
 ]
}