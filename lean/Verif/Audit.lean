import Verif.Model.RunLoop
import Verif.Model.Output
import Verif.Props.RunLoop
import Verif.Props.Output
import Verif.Props.Splitting
import Verif.Props.Subcycle
import Verif.Props.LevelIntegrator
import Verif.Props.Context
import Verif.Props.IndexBox
import Verif.Props.Layout
import Verif.Props.Span
import Verif.Props.PatchIntegrator
import Verif.Props.StableDt
import Verif.Props.Amr
import Verif.Props.Counter
import Verif.Props.Util
import Verif.Props.Pool
import Verif.Props.Limiter
import Verif.Props.Flux
import Verif.Props.Burgers
import Verif.Props.Gas
import Verif.Props.GasHll
import Verif.Props.ShallowWater
import Verif.Props.Hllem
import Verif.Props.Boundary
import Verif.Props.Valve
import Verif.Props.Geometry
import Verif.Props.Tagging
import Verif.Props.Reconstruct
import Verif.Props.GasMix
import Verif.Props.GasExact
import Verif.Props.CutCell
import Verif.Props.CutWall
import Verif.Props.Kinetics
import Verif.Props.IgnitionTemp
import Verif.Props.Control
import Verif.Props.TurbineBoundary
import Verif.Props.MassflowJirasek
import Verif.Props.MassflowHll
import Verif.Props.MassflowExact
import Verif.Props.ShockData
import Verif.Props.AxialTube
import Verif.Props.Diffusion
import Verif.Props.AxiSymmetric
import Verif.Props.Ignition
import Verif.Props.Average
import Verif.Props.BlockInterpolate
import Verif.Props.MultiBlock
import Verif.Props.NodalHelm
import Verif.Props.NodalSmooth
import Verif.Props.LowMachAdvection
import Verif.Props.LowMach
import Verif.Props.MdLimiter
import Verif.Props.CutGradient
import Verif.Props.HGrid
import Verif.Props.GridOutput
import Verif.Props.Hdf5File
import Verif.Props.MusclGas
import Verif.Props.Burke
import Verif.Props.BurkeThermo
import Verif.Props.Reactor
import Verif.Props.ReactorText
import Verif.Props.Newton
import Verif.Props.BurkeEnergy
import Verif.Props.IdealGasMix
import Verif.Props.IdealGasMixFlux
import Verif.Props.KineticSource
import Verif.Props.OdeDriver
import Verif.Props.Logging
import Verif.Props.OmpLocal
import Verif.Props.Interpolate1d
import Verif.Props.Options
import Verif.Props.IdealSignals
import Verif.Props.IdealPredictor
import Verif.Props.IdealMuscl
import Verif.Props.IdealMuscl2
import Verif.Props.PatchSweep
import Verif.Props.Supplement
import Verif.Props.CutBoundary
import Verif.Props.IsentropicBoundary
import Verif.Props.NodalHelmLin
import Verif.Props.RegridData
import Verif.Props.MultiBlockRun
import Verif.Props.Checkpoint
import Verif.Props.DebugOutput
import Verif.Props.States
import Verif.Props.CutSweep
import Verif.Props.HGridPolygon
import Verif.Props.WallCoupling
import Verif.Props.CutAmr
import Verif.Props.ControlOutput
import Verif.Props.AxialAmr
import Verif.Props.MethodFactory
import Verif.Props.AxialSweep
import Verif.Props.Samrai
import Verif.Props.SamraiView
import Verif.Props.ValveFill
import Verif.Props.CutStable
import Verif.Props.CutRegular
import Verif.Props.CutComplete
import Verif.Props.NodalWall
import Verif.Props.NodalEnergy
import Verif.Props.GhostTiming
import Verif.Props.Feedback
import Verif.Props.TurbineFlow
import Verif.Props.NodalLevels
import Verif.Props.TwoLevelRhs
import Verif.Props.TwoLevelResid
import Verif.Props.JointFlux
import Verif.Props.ValveJoint
import Verif.Props.NodalRelax
import Verif.Props.ProbeRun
import Verif.Props.SplitGradient
import Verif.Props.NodalRelaxLin
import Verif.Props.TChem
import Verif.Props.TChemMex
import Verif.Props.MultiBlockFirst
import Verif.Props.MatlabGrid
import Verif.Props.MatlabText
import Verif.Props.SlantedConnection
import Verif.Props.MusclMasked
import Verif.Props.RegularSpace
import Verif.Props.CvodeDriver
import Verif.Props.OdeFactory
import Verif.Props.PatchTransmissive
import Verif.Props.AdvectiveFluxes
import Verif.Props.StateComponents
import Verif.Props.BlockGridding
import Verif.Props.ScratchLevels

/-! Axioms of every theorem claimed in MANIFEST.json (generated). Each line of
    the build output must list a subset of `propext`, `Classical.choice`, `Quot.sound`. -/

#print axioms Fub.MixtureAt.content
#print axioms Fub.MixtureAt.unique
#print axioms Fub.accumulate_cells
#print axioms Fub.adapterStableDt_spec
#print axioms Fub.advanceHierarchy_spec
#print axioms Fub.advection_stable
#print axioms Fub.advective_fluxes_copy_not_deep
#print axioms Fub.advective_fluxes_copy_partial
#print axioms Fub.advective_fluxes_fit
#print axioms Fub.advective_fluxes_regrid
#print axioms Fub.amr_conservative
#print axioms Fub.amr_conservative_noSubcycle
#print axioms Fub.amr_synchronised
#print axioms Fub.anySplit3_schedule
#print axioms Fub.anySplit_changes_strang3
#print axioms Fub.array_load_lanes
#print axioms Fub.arrhenius_burns
#print axioms Fub.arrhenius_cold
#print axioms Fub.arrhenius_cold_drift
#print axioms Fub.arrhenius_conserves
#print axioms Fub.arrhenius_lean
#print axioms Fub.arrhenius_negative
#print axioms Fub.arrhenius_step
#print axioms Fub.assert_plain_partial
#print axioms Fub.assert_throws_inverted
#print axioms Fub.average_flux_closed
#print axioms Fub.average_flux_conserves
#print axioms Fub.average_mean
#print axioms Fub.average_range
#print axioms Fub.average_uncovered
#print axioms Fub.avgdown_bounds
#print axioms Fub.axi_source_inflow_dropped
#print axioms Fub.axi_source_partial
#print axioms Fub.axi_source_skips
#print axioms Fub.axi_source_time
#print axioms Fub.axi_species_rate
#print axioms Fub.axi_species_wrong
#print axioms Fub.axial_amr_conserves_partial
#print axioms Fub.axial_amr_not_conservative
#print axioms Fub.axial_at_rest
#print axioms Fub.axial_coarsen_not_conservative
#print axioms Fub.axial_conserves
#print axioms Fub.axial_constant_area
#print axioms Fub.axial_rest_hllem
#print axioms Fub.axial_source_exact
#print axioms Fub.axial_source_isentropic
#print axioms Fub.axial_source_needs_area
#print axioms Fub.axial_source_reads
#print axioms Fub.axial_source_shifted
#print axioms Fub.axial_source_steps
#print axioms Fub.axial_source_trivial
#print axioms Fub.axial_step_balance
#print axioms Fub.axial_sweep_faces
#print axioms Fub.axial_update_cells
#print axioms Fub.ball_partial
#print axioms Fub.ball_wrong
#print axioms Fub.bcDoit_spec
#print axioms Fub.bisect_spec
#print axioms Fub.block_conditions
#print axioms Fub.block_ghost_fill
#print axioms Fub.block_gridding_boundaries
#print axioms Fub.block_gridding_copy_partial
#print axioms Fub.block_gridding_copy_shares_valves
#print axioms Fub.block_gridding_regrid
#print axioms Fub.block_gridding_valves
#print axioms Fub.block_run
#print axioms Fub.block_updates_missed
#print axioms Fub.block_updates_none
#print axioms Fub.block_updates_prefix
#print axioms Fub.blocks_fresh_interrupted
#print axioms Fub.blocks_mixed_partial
#print axioms Fub.blocks_round_trip
#print axioms Fub.boundarySet_order
#print axioms Fub.boundarySet_reflective
#print axioms Fub.boundarySet_reflective_wrong_order
#print axioms Fub.boundarySet_transmissive
#print axioms Fub.burgers_boundary_overshoot
#print axioms Fub.burgers_max_principle
#print axioms Fub.burgers_riemann
#print axioms Fub.burgers_tvd
#print axioms Fub.burke_atoms_conserved
#print axioms Fub.burke_cp_is_derivative
#print axioms Fub.burke_cv_negative
#print axioms Fub.burke_energy_curve
#print axioms Fub.burke_energy_gap
#print axioms Fub.burke_enthalpy_drops
#print axioms Fub.burke_equations_balanced
#print axioms Fub.burke_gamma_range
#print axioms Fub.burke_heat_capacity_bound
#print axioms Fub.burke_inert
#print axioms Fub.burke_loss_proportional
#print axioms Fub.burke_mass_action
#print axioms Fub.burke_mass_conserved
#print axioms Fub.burke_molar_mass_atoms
#print axioms Fub.burke_names_injective
#print axioms Fub.burke_quasi_positive
#print axioms Fub.burke_rate_coeff_pos
#print axioms Fub.burke_small_step_nonneg
#print axioms Fub.burke_solution_conserves
#print axioms Fub.burke_temperature_lanes_partial
#print axioms Fub.burke_temperature_round_trip_partial
#print axioms Fub.burke_thermo_lane_partial
#print axioms Fub.burke_thermo_lane_window
#print axioms Fub.cell_polygon_fluid
#print axioms Fub.charReconstruct_mach_wrong
#print axioms Fub.charReconstruct_predictor
#print axioms Fub.checkpoint_all_or_nothing
#print axioms Fub.checkpoint_forgets_nodes_partial
#print axioms Fub.checkpoint_ratio_unchecked_partial
#print axioms Fub.checkpoint_round_trip
#print axioms Fub.checkpoint_too_many_levels_partial
#print axioms Fub.clamp_rejects
#print axioms Fub.clamp_spec
#print axioms Fub.clock_wrong_after_regrid
#print axioms Fub.clocks_agree_partial
#print axioms Fub.coarse_clock_exact
#print axioms Fub.coarse_levels_lose_tubes
#print axioms Fub.coarsen_refine
#print axioms Fub.command_line
#print axioms Fub.composite_compatible
#print axioms Fub.composite_constant
#print axioms Fub.composite_split
#print axioms Fub.composite_total
#print axioms Fub.composite_weak
#print axioms Fub.composition_duplicate
#print axioms Fub.composition_exception_state
#print axioms Fub.composition_line_break
#print axioms Fub.composition_malformed_number
#print axioms Fub.composition_text_partial
#print axioms Fub.composition_undefined
#print axioms Fub.compressor_ratio_bounds
#print axioms Fub.compressor_ratio_default
#print axioms Fub.compressor_ratio_wrong
#print axioms Fub.computeConstants_valid
#print axioms Fub.computeStableDt_spec
#print axioms Fub.cone_not_distance
#print axioms Fub.cone_sign_partial
#print axioms Fub.connected_iff
#print axioms Fub.constantBox_partial
#print axioms Fub.constantBox_wrong
#print axioms Fub.constant_fill
#print axioms Fub.containsBox_spec
#print axioms Fub.contains_iff
#print axioms Fub.context_copy_clocks_undefined
#print axioms Fub.context_copy_keeps
#print axioms Fub.context_copy_loses_callbacks
#print axioms Fub.context_copy_no_regrid
#print axioms Fub.context_copy_prepared_partial
#print axioms Fub.control_averages_partial
#print axioms Fub.control_averages_wrong
#print axioms Fub.control_compressor_power
#print axioms Fub.control_energy_partial
#print axioms Fub.control_energy_wrong
#print axioms Fub.control_fails
#print axioms Fub.control_file_crash
#print axioms Fub.control_file_history
#print axioms Fub.control_fuel
#print axioms Fub.control_mass
#print axioms Fub.control_names_exhausted
#print axioms Fub.control_pressure
#print axioms Fub.control_regulation
#print axioms Fub.control_restarts_keep_all
#print axioms Fub.control_rpm
#print axioms Fub.control_sec
#print axioms Fub.control_turbine
#print axioms Fub.copy_block_context
#print axioms Fub.counter_stats
#print axioms Fub.coupled_box_misplaced
#print axioms Fub.coupled_box_partial
#print axioms Fub.coupled_mass
#print axioms Fub.create_ratio_wrong
#print axioms Fub.crossedLine_spec
#print axioms Fub.ctx_run_clock
#print axioms Fub.cutCompleteLevelScalar_spec
#print axioms Fub.cutCompleteLevel_gas
#print axioms Fub.cutCompleteRow_spec
#print axioms Fub.cutCompleteScalar_spec
#print axioms Fub.cutCompleteSimd_spec
#print axioms Fub.cutLevelDt_le
#print axioms Fub.cutRegularFluxes_spec
#print axioms Fub.cutStableDt_mem
#print axioms Fub.cutStableDt_spec
#print axioms Fub.cut_cell_balance
#print axioms Fub.cut_cell_bounded
#print axioms Fub.cut_checkpoint_levels_partial
#print axioms Fub.cut_checkpoint_round_trip
#print axioms Fub.cut_complete_agree
#print axioms Fub.cut_complete_copies
#print axioms Fub.cut_constant_fill
#print axioms Fub.cut_factory_same
#print axioms Fub.cut_fluxes_ignore_covered
#print axioms Fub.cut_gradient_affine
#print axioms Fub.cut_isentropic_fill
#print axioms Fub.cut_line_closed
#print axioms Fub.cut_line_conservative
#print axioms Fub.cut_massflow_fill
#print axioms Fub.cut_outflow_fill
#print axioms Fub.cut_reflective_fill
#print axioms Fub.cut_reflux_content
#print axioms Fub.cut_reflux_partial
#print axioms Fub.cut_reflux_wrong
#print axioms Fub.cut_row_covered
#print axioms Fub.cut_row_covered_mixed
#print axioms Fub.cut_row_simd
#print axioms Fub.cut_step_all_closed
#print axioms Fub.cut_step_attained
#print axioms Fub.cut_step_closed
#print axioms Fub.cut_step_positive
#print axioms Fub.cut_step_stable
#print axioms Fub.cut_sweep_first_face
#print axioms Fub.cut_sweep_patches_agree
#print axioms Fub.cut_sweep_patches_disagree
#print axioms Fub.cut_sweep_race
#print axioms Fub.cut_sweep_schedule
#print axioms Fub.cut_sweep_schedule_partial
#print axioms Fub.cut_sweep_tiles
#print axioms Fub.cut_uniform
#print axioms Fub.cut_update2_balance
#print axioms Fub.cut_update2_unbounded
#print axioms Fub.cvode_clone
#print axioms Fub.cvode_flags_ignored
#print axioms Fub.cvode_hangs
#print axioms Fub.cvode_no_step
#print axioms Fub.cvode_normal
#print axioms Fub.cvode_observed
#print axioms Fub.cvode_observer_overshoots
#print axioms Fub.cvode_sizes
#print axioms Fub.debug_cycle
#print axioms Fub.debug_directories_collide
#print axioms Fub.debug_directories_distinct_partial
#print axioms Fub.debug_face_average_linear
#print axioms Fub.debug_flush_complete
#print axioms Fub.debug_gather_columns
#print axioms Fub.debug_gather_geometry
#print axioms Fub.debug_names_not_unique
#print axioms Fub.debug_names_unique_partial
#print axioms Fub.debug_partitions
#print axioms Fub.debug_save
#print axioms Fub.debug_snapshot_directory
#print axioms Fub.decomposition_independent
#print axioms Fub.default_ghost_cells
#print axioms Fub.default_ghost_cells_source
#print axioms Fub.deflagration_valve
#print axioms Fub.diff_coefficients
#print axioms Fub.diff_copy_loses_options
#print axioms Fub.diff_copy_partial
#print axioms Fub.diff_enthalpy
#print axioms Fub.diff_flux_down
#print axioms Fub.diff_flux_sum
#print axioms Fub.diff_flux_zero
#print axioms Fub.diff_species_maximum
#print axioms Fub.diff_species_maximum_partial
#print axioms Fub.diff_step_conserves
#print axioms Fub.diff_step_mass
#print axioms Fub.diff_tube_conserves
#print axioms Fub.diff_unstable
#print axioms Fub.dirichlet_mask
#print axioms Fub.dot_mask
#print axioms Fub.eb_base_grids
#print axioms Fub.eb_base_grids_gas
#print axioms Fub.eb_coarsen_partial
#print axioms Fub.eb_coarsen_plain
#print axioms Fub.eb_coarsen_wrong
#print axioms Fub.eb_composite_total
#print axioms Fub.eb_flat_wall
#print axioms Fub.eb_geometries_differ
#print axioms Fub.eb_initialize_bounds
#print axioms Fub.eb_initialize_means
#print axioms Fub.eb_regrid_means
#print axioms Fub.eb_regrid_partial
#print axioms Fub.eb_regrid_wrong
#print axioms Fub.eb_wall_fraction
#print axioms Fub.einfeldt_bounds
#print axioms Fub.einfeldt_masked_nan
#print axioms Fub.einfeldt_wall
#print axioms Fub.embedIndex_injective
#print axioms Fub.embed_keeps
#print axioms Fub.embed_project
#print axioms Fub.energy_curve_of_slopes
#print axioms Fub.entropyWave_solves
#print axioms Fub.exact_reaches
#print axioms Fub.exchange_before_fill
#print axioms Fub.expansion_fill
#print axioms Fub.face_neighbours
#print axioms Fub.face_parts
#print axioms Fub.face_parts_rel
#print axioms Fub.face_parts_simd
#print axioms Fub.faces_copy_null_2d
#print axioms Fub.faces_copy_partial
#print axioms Fub.factory_accepts_only
#print axioms Fub.factory_conservative
#print axioms Fub.factory_cvode_default
#print axioms Fub.factory_first
#print axioms Fub.factory_order
#print axioms Fub.factory_selects
#print axioms Fub.factory_solvers
#print axioms Fub.fan_centroid_edges
#print axioms Fub.fan_centroid_inside
#print axioms Fub.fan_centroid_start
#print axioms Fub.feedback_rpm
#print axioms Fub.feedback_run_history
#print axioms Fub.feedback_turbine
#print axioms Fub.finest_level_sees_tubes
#print axioms Fub.first_output_current_partial
#print axioms Fub.first_output_frozen
#print axioms Fub.first_output_wrong
#print axioms Fub.first_plena_ready_partial
#print axioms Fub.first_tubes_never_ready
#print axioms Fub.fluxSeq_spec
#print axioms Fub.fluxSimd_eq
#print axioms Fub.flux_sweep_all
#print axioms Fub.forEachIndexMapping_spec
#print axioms Fub.forEachIndex_spec
#print axioms Fub.forEachIndex_two
#print axioms Fub.forEachRow_empty
#print axioms Fub.forEachRow_spec
#print axioms Fub.forEachRow_two_partial
#print axioms Fub.fuel_changes_inside
#print axioms Fub.fuel_depends_on_patches
#print axioms Fub.gasExpansion_partial
#print axioms Fub.gasExpansion_wrong
#print axioms Fub.gas_complete_iff
#print axioms Fub.gas_complete_level
#print axioms Fub.gas_cons_roundtrip
#print axioms Fub.gas_covered_tile
#print axioms Fub.gas_covered_zero
#print axioms Fub.gas_exact_consistent
#print axioms Fub.gas_exact_masked
#print axioms Fub.gas_exact_positive
#print axioms Fub.gas_exact_signals
#print axioms Fub.gas_exact_solution
#print axioms Fub.gas_exact_solver
#print axioms Fub.gas_flux_versions
#print axioms Fub.gas_gamma_only_fails
#print axioms Fub.gas_middle_error
#print axioms Fub.gas_middle_unique
#print axioms Fub.gas_middle_velocity
#print axioms Fub.gas_newton_converges
#print axioms Fub.gas_newton_derivative
#print axioms Fub.gas_no_probes_undefined
#print axioms Fub.gas_pressure_outflow_partial
#print axioms Fub.gas_prim_roundtrip
#print axioms Fub.gas_probe_rows
#print axioms Fub.gas_reflect
#print axioms Fub.gas_reflect_wall
#print axioms Fub.gas_rotate
#print axioms Fub.gas_rotate_flux
#print axioms Fub.gas_temperature_mach
#print axioms Fub.gas_vacuum_throws
#print axioms Fub.gather_differs
#print axioms Fub.gather_mirror
#print axioms Fub.gather_partial
#print axioms Fub.gather_states_partial
#print axioms Fub.gather_zero_is_replaced
#print axioms Fub.generic_valve_assertion_fails
#print axioms Fub.generic_valve_run
#print axioms Fub.generic_valve_step
#print axioms Fub.get_boundary_lower
#print axioms Fub.get_boundary_upper
#print axioms Fub.get_fluxes
#print axioms Fub.get_mole_fractions_partial
#print axioms Fub.ghost_mirror
#print axioms Fub.ghost_refs_stale
#print axioms Fub.ghost_sources
#print axioms Fub.ghosts_current
#print axioms Fub.ghosts_synced
#print axioms Fub.godunov_consistent
#print axioms Fub.godunov_schedule
#print axioms Fub.gradRow_partial
#print axioms Fub.gradRow_wrong
#print axioms Fub.gradTag_spec
#print axioms Fub.grad_channel_fails
#print axioms Fub.grad_sort_not_an_order
#print axioms Fub.grad_stencil_open_partial
#print axioms Fub.gradient_blocks_undefined
#print axioms Fub.gradient_components
#print axioms Fub.gradient_erased_groups
#print axioms Fub.gradient_limiters
#print axioms Fub.gradient_linear
#print axioms Fub.gradient_plane_partial
#print axioms Fub.gradient_plane_undefined
#print axioms Fub.gradient_space
#print axioms Fub.gradient_sweeps
#print axioms Fub.grow_shrink
#print axioms Fub.grow_spec
#print axioms Fub.gs_node_residual
#print axioms Fub.gs_rotation_diverges
#print axioms Fub.gs_sweep_fixed
#print axioms Fub.halfspace_distance
#print axioms Fub.handle_self_assignment_closes
#print axioms Fub.handles_closed_exactly_once
#print axioms Fub.hdf5_boxes_chain
#print axioms Fub.hdf5_compose_partial
#print axioms Fub.hdf5_crash_in_create_loses_times
#print axioms Fub.hdf5_crash_misaligns
#print axioms Fub.hdf5_cut_box_loses_coarse
#print axioms Fub.hdf5_cut_compose_partial
#print axioms Fub.hdf5_cut_ranks_add_fractions
#print axioms Fub.hdf5_history
#print axioms Fub.hdf5_history_with_crashes
#print axioms Fub.hdf5_reader_round_trip
#print axioms Fub.hdf5_several_reader_mixes_cells
#print axioms Fub.hdf5_shape_change
#print axioms Fub.hdf5_shape_change_mixes_cells
#print axioms Fub.hdf5_zero_is_overwritten
#print axioms Fub.helm_apply_const
#print axioms Fub.helm_apply_flux
#print axioms Fub.helm_checkerboard
#print axioms Fub.helm_coarse_ignores
#print axioms Fub.helm_coarse_null
#print axioms Fub.helm_coarse_operator
#print axioms Fub.helm_cross_ghosts
#print axioms Fub.helm_diag_neg
#print axioms Fub.helm_energy
#print axioms Fub.helm_finest_operator
#print axioms Fub.helm_ha_const
#print axioms Fub.helm_ha_not_conservative
#print axioms Fub.helm_ha_partial
#print axioms Fub.helm_harmonic_operator_wrong
#print axioms Fub.helm_history
#print axioms Fub.helm_kernel
#print axioms Fub.helm_normalize
#print axioms Fub.helm_prepare_consistent
#print axioms Fub.helm_sigma_range
#print axioms Fub.helm_solvable
#print axioms Fub.helm_solvable_incompressible
#print axioms Fub.hgrid_mirror_distance_partial
#print axioms Fub.hgrid_mirror_leaves
#print axioms Fub.hgrid_polygons
#print axioms Fub.hgrid_regular_exact
#print axioms Fub.hgrid_shielded_exact
#print axioms Fub.hgrid_wall_gradient_not_mirrored
#print axioms Fub.hgrid_wall_mirror_partial
#print axioms Fub.hgrid_wall_uniform
#print axioms Fub.hllMaskedDt_spec
#print axioms Fub.hll_consistent
#print axioms Fub.hll_degenerate
#print axioms Fub.hll_gas_consistent
#print axioms Fub.hll_gas_run_positive
#print axioms Fub.hll_gas_solver_positive
#print axioms Fub.hll_gas_step_positive
#print axioms Fub.hll_jump_relations
#print axioms Fub.hll_pressure_between
#print axioms Fub.hll_pressure_flux
#print axioms Fub.hll_solver_array_partial
#print axioms Fub.hll_solver_array_stale
#print axioms Fub.hll_solver_flux
#print axioms Fub.hll_solver_upwind
#print axioms Fub.hllem_array_3d_contact_false
#print axioms Fub.hllem_array_consistent
#print axioms Fub.hllem_array_contact_partial
#print axioms Fub.hllem_consistent_partial
#print axioms Fub.hllem_contact_partial
#print axioms Fub.hllem_data_facts
#print axioms Fub.hllem_larr_scalar_sign
#print axioms Fub.hllem_masked
#print axioms Fub.hllem_mirror_partial
#print axioms Fub.hllem_pstar
#print axioms Fub.hllem_roeA2_pos
#print axioms Fub.hllem_scalar_3d_stale
#print axioms Fub.hllem_scalar_eq_array_partial
#print axioms Fub.hllem_solve_larr_loses_momentum
#print axioms Fub.hllem_solve_negative_density
#print axioms Fub.hllem_solve_same_partial
#print axioms Fub.hllem_stable_dt
#print axioms Fub.hllem_upwind
#print axioms Fub.igmExpansion1d_state
#print axioms Fub.igmGhostCut_rest
#print axioms Fub.igm_array_is_masked
#print axioms Fub.igm_array_round_trip_partial
#print axioms Fub.igm_char_array_loop
#print axioms Fub.igm_char_fraction_bounds
#print axioms Fub.igm_char_prim_differ
#print axioms Fub.igm_char_quarter_step
#print axioms Fub.igm_char_species_step
#print axioms Fub.igm_char_state
#print axioms Fub.igm_complete_conserves
#print axioms Fub.igm_complete_from_reactor
#print axioms Fub.igm_complete_history
#print axioms Fub.igm_complete_species_sum
#print axioms Fub.igm_einfeldt_bounds
#print axioms Fub.igm_einfeldt_masked
#print axioms Fub.igm_einfeldt_mirror
#print axioms Fub.igm_einfeldt_same
#print axioms Fub.igm_einfeldt_versions_differ
#print axioms Fub.igm_face_taylor
#print axioms Fub.igm_flux_spec
#print axioms Fub.igm_flux_species
#print axioms Fub.igm_flux_vacuum
#print axioms Fub.igm_from_prim_lane
#print axioms Fub.igm_from_prim_state
#print axioms Fub.igm_lanes_round_trip_partial
#print axioms Fub.igm_last_temperature
#print axioms Fub.igm_muscl_char_consistent
#print axioms Fub.igm_muscl_fraction_bounds
#print axioms Fub.igm_muscl_lane_negative
#print axioms Fub.igm_muscl_lane_sum
#print axioms Fub.igm_muscl_lane_temperature
#print axioms Fub.igm_muscl_masked_closed
#print axioms Fub.igm_muscl_masked_faces
#print axioms Fub.igm_muscl_prim_consistent
#print axioms Fub.igm_muscl_scalar_inert
#print axioms Fub.igm_muscl_versions_differ
#print axioms Fub.igm_predictor_euler
#print axioms Fub.igm_prim_round_trip
#print axioms Fub.igm_reflect
#print axioms Fub.igm_roe_spec
#print axioms Fub.igm_rotate_complete
#print axioms Fub.igm_rotate_flux
#print axioms Fub.igm_round_trip_partial
#print axioms Fub.igm_set_reactor
#print axioms Fub.igm_var_names_length
#print axioms Fub.igm_var_names_single
#print axioms Fub.igm_var_names_species
#print axioms Fub.ignite_catches_up
#print axioms Fub.ignite_count
#print axioms Fub.ignite_equivalence
#print axioms Fub.ignite_exactly
#print axioms Fub.ignite_offset_zero
#print axioms Fub.ignite_point
#print axioms Fub.ignite_profile
#print axioms Fub.ignite_profile_range
#print axioms Fub.ignite_ranks
#print axioms Fub.ignite_schedule
#print axioms Fub.ignitionDelay_deriv_wrong
#print axioms Fub.ignitionDelay_hasDerivAt
#print axioms Fub.ignitionDelay_strictAnti
#print axioms Fub.ignition_conserves
#print axioms Fub.ignition_decay
#print axioms Fub.ignition_delay_partial
#print axioms Fub.ignition_delay_wrong
#print axioms Fub.ignition_length_partial
#print axioms Fub.ignition_round_trip
#print axioms Fub.ignition_small_tau
#print axioms Fub.ignition_step
#print axioms Fub.impose_neumann
#print axioms Fub.inflow_high_wrong
#print axioms Fub.inflow_low
#print axioms Fub.initialize_complete_wrong
#print axioms Fub.initialize_means
#print axioms Fub.innerBox_mem
#print axioms Fub.inner_demand_differs
#print axioms Fub.insulating_cases
#print axioms Fub.interp1d_beyond_last
#print axioms Fub.interp1d_bounds
#print axioms Fub.interp1d_cell_centres_shifted
#print axioms Fub.interp1d_cell_state
#print axioms Fub.interp1d_few_positions
#print axioms Fub.interp1d_mean_of_positions
#print axioms Fub.interp1d_reads_dataset
#print axioms Fub.interp_affine
#print axioms Fub.interp_bounds
#print axioms Fub.interpolate_exact_partial
#print axioms Fub.interpolate_ratio
#print axioms Fub.interpolate_reads_past
#print axioms Fub.intersect_spec
#print axioms Fub.invert_solid
#print axioms Fub.ipow_spec
#print axioms Fub.isSplitting_all
#print axioms Fub.isentropicExpansion_partial
#print axioms Fub.isentropicExpansion_speed
#print axioms Fub.isentropicExpansion_wrong
#print axioms Fub.isentropic_exact
#print axioms Fub.isentropic_perfect
#print axioms Fub.isoVelocity_partial
#print axioms Fub.isoVelocity_wrong
#print axioms Fub.jacobi_diverges
#print axioms Fub.jacobi_fixed
#print axioms Fub.jacobi_mode
#print axioms Fub.jirasek_consistent
#print axioms Fub.jirasek_partial
#print axioms Fub.jirasek_wrong
#print axioms Fub.joint_conserves
#print axioms Fub.joint_frame
#print axioms Fub.joint_missing_level
#print axioms Fub.joint_rest_wrong
#print axioms Fub.joint_runs
#print axioms Fub.joint_unreached
#print axioms Fub.joint_upper_wrong
#print axioms Fub.kbn_boundary_flux
#print axioms Fub.kbn_flux_between
#print axioms Fub.kbn_reference
#print axioms Fub.kbn_wall_exchange
#print axioms Fub.kbn_wall_exchange_wrong
#print axioms Fub.kbn_wall_rest
#print axioms Fub.kbn_wall_state
#print axioms Fub.kinFromMixArray_normalised
#print axioms Fub.kinetic_cell_result
#print axioms Fub.kinetic_cells_independent
#print axioms Fub.kinetic_conserves_partial
#print axioms Fub.kinetic_energy_drift
#print axioms Fub.kinetic_roundtrip
#print axioms Fub.klein_opened
#print axioms Fub.levelStableDt_spec
#print axioms Fub.level_steps_stable
#print axioms Fub.lin_apply_flux
#print axioms Fub.lin_consistent
#print axioms Fub.lin_diag
#print axioms Fub.lin_diag_ha
#print axioms Fub.lin_energy
#print axioms Fub.lin_gs_list_converges
#print axioms Fub.lin_gs_node
#print axioms Fub.lin_gs_sweep
#print axioms Fub.lin_ha_const
#print axioms Fub.lin_ha_normalize_wrong
#print axioms Fub.lin_ha_partial
#print axioms Fub.lin_jacobi_diag
#print axioms Fub.lin_jacobi_fixed
#print axioms Fub.lin_kernel
#print axioms Fub.lin_normalize_system
#print axioms Fub.lin_projection_partial
#print axioms Fub.lin_projection_wrong
#print axioms Fub.lin_smooth_gs_converges
#print axioms Fub.lin_smooth_jacobi_converges
#print axioms Fub.lin_solvable
#print axioms Fub.lin_solvable_incompressible
#print axioms Fub.lin_sum_zero
#print axioms Fub.lin_symmetric
#print axioms Fub.lind_bounds
#print axioms Fub.lm_advect_chi
#print axioms Fub.lm_advect_conserves
#print axioms Fub.lm_advect_incompressible
#print axioms Fub.lm_advect_pt
#print axioms Fub.lm_advect_uniform
#print axioms Fub.lm_backward_divergence
#print axioms Fub.lm_backward_projects
#print axioms Fub.lm_coriolis_backward
#print axioms Fub.lm_coriolis_energy
#print axioms Fub.lm_correct_pv
#print axioms Fub.lm_face_divergence
#print axioms Fub.lm_flux_linear
#print axioms Fub.lm_flux_mirror
#print axioms Fub.lm_flux_uniform
#print axioms Fub.lm_flux_upwind
#print axioms Fub.lm_forward_coriolis
#print axioms Fub.lm_initial_projection_partial
#print axioms Fub.lm_initial_projection_stale
#print axioms Fub.lm_overshoot
#print axioms Fub.lm_run_mass
#print axioms Fub.lm_stable_dt
#print axioms Fub.lm_step_failure
#print axioms Fub.lm_step_failure_changes
#print axioms Fub.lm_step_incompressible
#print axioms Fub.lm_step_uniform
#print axioms Fub.loadN_lanes
#print axioms Fub.log_channel_filter
#print axioms Fub.log_console_filter
#print axioms Fub.log_every_line_prefixed
#print axioms Fub.log_message_recovered
#print axioms Fub.log_old_file_renamed
#print axioms Fub.log_other_ranks_overwrite
#print axioms Fub.log_prefix_shows
#print axioms Fub.log_rank0_destroys_nothing
#print axioms Fub.log_ranks
#print axioms Fub.log_short_message_lost
#print axioms Fub.lp_solves
#print axioms Fub.lsq_affine
#print axioms Fub.lsq_exists
#print axioms Fub.lsq_minimal
#print axioms Fub.lumped_schedule
#print axioms Fub.mach_boundary_partial
#print axioms Fub.mach_boundary_wrong
#print axioms Fub.makeOutput_spec
#print axioms Fub.make_rotation2
#print axioms Fub.make_rotation3
#print axioms Fub.make_rotation_flux
#print axioms Fub.mapLeft_bijective
#print axioms Fub.mapRight_bijective
#print axioms Fub.masked_limiters
#print axioms Fub.mass_fraction_lanes
#print axioms Fub.mass_fraction_lanes_negative
#print axioms Fub.massflowGhost_spec
#print axioms Fub.massflow_box_not_refined
#print axioms Fub.massflow_cut_partial
#print axioms Fub.massflow_cut_wrong
#print axioms Fub.massflow_filled
#print axioms Fub.massflow_left_choked
#print axioms Fub.massflow_left_inverse
#print axioms Fub.massflow_left_partial
#print axioms Fub.massflow_partly_covered
#print axioms Fub.massflow_right_partial
#print axioms Fub.massflow_right_wrong
#print axioms Fub.massflow_unfilled
#print axioms Fub.mat_compose_exact
#print axioms Fub.mat_data_file
#print axioms Fub.mat_file_reads
#print axioms Fub.matlab_grid_3d_wrong
#print axioms Fub.matlab_grid_partial
#print axioms Fub.matlab_grid_planes
#print axioms Fub.matlab_text_header_wrong
#print axioms Fub.matlab_text_line
#print axioms Fub.matlab_text_lines
#print axioms Fub.max_dT_wrong
#print axioms Fub.mb_bad
#print axioms Fub.mb_clocks
#print axioms Fub.mb_no_bad_partial
#print axioms Fub.mb_pre_level
#print axioms Fub.mb_source
#print axioms Fub.mb_source_dt
#print axioms Fub.mb_source_guarded
#print axioms Fub.mb_stable_dt
#print axioms Fub.mb_tube_times_wrong
#print axioms Fub.md_limiter_extremum
#print axioms Fub.md_limiter_idempotent
#print axioms Fub.md_limiter_misses_open_neighbour
#print axioms Fub.md_limiter_optimal
#print axioms Fub.md_limiter_partial
#print axioms Fub.md_limiter_unchanged
#print axioms Fub.meanValue_is_mean_partial
#print axioms Fub.meanValue_multiplied_by_tiles
#print axioms Fub.meanValue_weights
#print axioms Fub.meanX_spec
#print axioms Fub.mean_range
#print axioms Fub.mex_advance_energy_partial
#print axioms Fub.mex_advance_partial
#print axioms Fub.mex_enthalpies_ignore
#print axioms Fub.mex_enthalpies_wrong
#print axioms Fub.mex_equal_cells_differ
#print axioms Fub.mex_fractions
#print axioms Fub.mex_mechanism_first
#print axioms Fub.mex_set_tpx_partial
#print axioms Fub.mirror_width
#print axioms Fub.mixExpandState_partial
#print axioms Fub.mixExpandState_speed
#print axioms Fub.mixFromKin_mach
#print axioms Fub.mixPressureOfCons_spec
#print axioms Fub.mixSetVelocity_spec
#print axioms Fub.mix_complete_iff
#print axioms Fub.mix_cons_roundtrip
#print axioms Fub.mix_flux
#print axioms Fub.mix_pressure_outflow_partial
#print axioms Fub.mix_prim_roundtrip
#print axioms Fub.mix_reflect_rotate
#print axioms Fub.multiBlock_copy_loses_plena
#print axioms Fub.multiBlock_copy_partial
#print axioms Fub.multiInvoked_spec
#print axioms Fub.multiNext_spec
#print axioms Fub.multiShall_iff
#print axioms Fub.multi_from_options
#print axioms Fub.muscl2Lane_reads
#print axioms Fub.muscl2Masked_covered
#print axioms Fub.muscl2Masked_sides
#print axioms Fub.muscl_char_consistent
#print axioms Fub.muscl_char_eq_prim
#print axioms Fub.muscl_char_linear
#print axioms Fub.muscl_char_masked
#print axioms Fub.muscl_char_masked_central
#print axioms Fub.muscl_char_mirror_partial
#print axioms Fub.muscl_char_predictor
#print axioms Fub.muscl_char_roundtrip
#print axioms Fub.muscl_consistent
#print axioms Fub.muscl_gas_closed_nan
#print axioms Fub.muscl_gas_open
#print axioms Fub.muscl_gas_uniform
#print axioms Fub.muscl_godunov_closed
#print axioms Fub.muscl_implementations_agree
#print axioms Fub.muscl_limiters
#print axioms Fub.muscl_prim_consistent
#print axioms Fub.muscl_prim_limiter
#print axioms Fub.muscl_prim_limiter_units
#print axioms Fub.muscl_prim_masked
#print axioms Fub.muscl_prim_mirror_partial
#print axioms Fub.muscl_prim_negative_density
#print axioms Fub.muscl_prim_positive_partial
#print axioms Fub.muscl_prim_predictor
#print axioms Fub.muscl_vector_closed
#print axioms Fub.muscl_vector_covered
#print axioms Fub.muscl_vector_open
#print axioms Fub.my_shielded_covered
#print axioms Fub.my_stable_between_partial
#print axioms Fub.my_stable_loses_doubly_shielded
#print axioms Fub.my_stable_uniform
#print axioms Fub.nearestCell_full
#print axioms Fub.neighborhood_spec
#print axioms Fub.nested_left
#print axioms Fub.nested_strang_ghost_cells
#print axioms Fub.nested_subspan
#print axioms Fub.newton_bracket_best
#print axioms Fub.newton_converged_of_lower
#print axioms Fub.newton_converged_partial
#print axioms Fub.newton_fixed
#print axioms Fub.newton_negative_limit
#print axioms Fub.newton_negative_residual
#print axioms Fub.newton_nonneg
#print axioms Fub.newton_stays_in_bracket
#print axioms Fub.nextOutputTime_single
#print axioms Fub.noLimiter_overshoots
#print axioms Fub.noSubcycle_schedule
#print axioms Fub.noSubcycle_stable
#print axioms Fub.no_plenum_undefined
#print axioms Fub.no_subcycling_ghosts_partial
#print axioms Fub.no_subcycling_refs
#print axioms Fub.no_subcycling_stale_ghosts
#print axioms Fub.nodal_mask
#print axioms Fub.node_div_adjoint
#print axioms Fub.node_div_sum
#print axioms Fub.node_divergence
#print axioms Fub.node_rhcc
#print axioms Fub.odeRhsSetP_eq
#print axioms Fub.ode_rhs_energy
#print axioms Fub.ode_solution_conserves
#print axioms Fub.ompLocal_accumulate
#print axioms Fub.ompLocal_accumulate_zero
#print axioms Fub.ompLocal_defined_iff
#print axioms Fub.ompLocal_min
#print axioms Fub.ompLocal_threads_isolated
#print axioms Fub.openedAfter_run
#print axioms Fub.option_direction_unchecked
#print axioms Fub.option_number
#print axioms Fub.option_string
#print axioms Fub.option_value
#print axioms Fub.options_bad_section
#print axioms Fub.options_missing_section
#print axioms Fub.options_section
#print axioms Fub.outputOptions_defaults
#print axioms Fub.output_block_negative
#print axioms Fub.output_block_no_plenum
#print axioms Fub.output_block_only_first_plenum
#print axioms Fub.output_block_partial
#print axioms Fub.output_construction_keeps_files
#print axioms Fub.output_duplicated_after_failure
#print axioms Fub.output_fresh_partial
#print axioms Fub.output_names_exhausted
#print axioms Fub.output_runs_keep_all
#print axioms Fub.paired_restore_state
#print axioms Fub.patch_split_step
#print axioms Fub.patch_steps_level
#print axioms Fub.patch_transmissive
#print axioms Fub.patch_transmissive_fallback
#print axioms Fub.patch_transmissive_order
#print axioms Fub.patch_transmissive_small
#print axioms Fub.plena_share_file
#print axioms Fub.plenum_closed
#print axioms Fub.plenum_flows
#print axioms Fub.plenum_mass
#print axioms Fub.plenum_open
#print axioms Fub.plenum_probe_file_renamed
#print axioms Fub.plenum_probe_one
#print axioms Fub.plenum_probes_scrambled
#print axioms Fub.plenum_unset
#print axioms Fub.pointer_components
#print axioms Fub.polygon_distance
#print axioms Fub.polygon_empty
#print axioms Fub.polygon_width
#print axioms Fub.pool_aliasing
#print axioms Fub.pool_cycle
#print axioms Fub.pool_destroy_size
#print axioms Fub.pool_partial
#print axioms Fub.pool_returns_all
#print axioms Fub.pre_shock_state
#print axioms Fub.pressureValve_fill
#print axioms Fub.pressureValve_no_boundary
#print axioms Fub.pressureValve_unfilled
#print axioms Fub.pressure_layout
#print axioms Fub.pressure_outflow_wrong
#print axioms Fub.primReconstruct_jump
#print axioms Fub.primReconstruct_mach
#print axioms Fub.primReconstruct_predictor
#print axioms Fub.probe_history
#print axioms Fub.probe_nonregular
#print axioms Fub.probe_rows
#print axioms Fub.probe_run_files
#print axioms Fub.production_rates_partial
#print axioms Fub.production_rates_stale
#print axioms Fub.radau_integrate_partial
#print axioms Fub.radau_retry_duration
#print axioms Fub.radau_retry_partial
#print axioms Fub.radau_retry_twice
#print axioms Fub.radau_retry_undefined
#print axioms Fub.reactor_after_advance
#print axioms Fub.reactor_assign_array
#print axioms Fub.reactor_assign_wrong_tables
#print axioms Fub.reactor_copy_partial
#print axioms Fub.reactor_copy_tolerances
#print axioms Fub.reactor_stale_after_advance
#print axioms Fub.reactor_thermo_consistent_partial
#print axioms Fub.rebind_exact
#print axioms Fub.recompute_ax
#print axioms Fub.reconstructInvers_fails
#print axioms Fub.reconstructInvers_partial
#print axioms Fub.reconstructInvers_wrong
#print axioms Fub.reconstruct_constant
#print axioms Fub.reconstruction_in_range
#print axioms Fub.reduce_embed
#print axioms Fub.reduce_pressure
#print axioms Fub.reduced_index
#print axioms Fub.reduced_model_opened
#print axioms Fub.reference_gradient_wrong
#print axioms Fub.reference_stale
#print axioms Fub.reference_state_exact_partial
#print axioms Fub.reference_stored
#print axioms Fub.refine_coarsenable
#print axioms Fub.reflective_fill
#print axioms Fub.reflective_fill_gas
#print axioms Fub.reflective_wall_hll
#print axioms Fub.reflux_diagonal_wrong
#print axioms Fub.reflux_elsewhere
#print axioms Fub.reflux_fine_part
#print axioms Fub.reflux_gradient_partial
#print axioms Fub.reflux_wrong
#print axioms Fub.refs_current_partial
#print axioms Fub.registerOutput_result
#print axioms Fub.register_first_wins
#print axioms Fub.registry_gather
#print axioms Fub.registry_records
#print axioms Fub.regrid_complete_partial
#print axioms Fub.regrid_complete_witness
#print axioms Fub.regrid_complete_wrong
#print axioms Fub.regrid_conserves
#print axioms Fub.regrid_conserves_needs_means
#print axioms Fub.regrid_frequency_stale_ghosts
#print axioms Fub.regrid_keeps_cells
#print axioms Fub.regrid_loses_cycles
#print axioms Fub.regrid_means
#print axioms Fub.regrid_once
#print axioms Fub.regrid_times
#print axioms Fub.regular_space_levels
#print axioms Fub.regular_space_required
#print axioms Fub.regular_space_unknown
#print axioms Fub.require_massflow
#print axioms Fub.require_massflow_accuracy
#print axioms Fub.require_massflow_fails
#print axioms Fub.require_massflow_found
#print axioms Fub.requiredMassflow_spec
#print axioms Fub.res_cf_partial
#print axioms Fub.res_cf_wrong
#print axioms Fub.restart_continues
#print axioms Fub.restart_first_level
#print axioms Fub.restart_forgets_opening_partial
#print axioms Fub.restart_from_file
#print axioms Fub.restart_skips_regrid_partial
#print axioms Fub.restrict_affine
#print axioms Fub.retry_uses_reported_dt
#print axioms Fub.riemann_data
#print axioms Fub.rk3_consistent
#print axioms Fub.rk3_diffusion_direction
#print axioms Fub.rk3_interpolation
#print axioms Fub.rk3_local_is_global
#print axioms Fub.rk3_stable_dt_partial
#print axioms Fub.rollback_undefined
#print axioms Fub.rotateAroundPoint_solid
#print axioms Fub.rotateAxis_solid
#print axioms Fub.row_components
#print axioms Fub.row_count_partial
#print axioms Fub.row_count_vector
#print axioms Fub.rows_cells
#print axioms Fub.run_attempts
#print axioms Fub.run_exit_reason
#print axioms Fub.run_no_output_skipped
#print axioms Fub.run_no_ub
#print axioms Fub.run_rollback
#print axioms Fub.run_terminates
#print axioms Fub.run_time_le_final
#print axioms Fub.run_time_monotone
#print axioms Fub.samrai_cell_coordinate
#print axioms Fub.samrai_cell_coordinate_single
#print axioms Fub.samrai_clock
#print axioms Fub.samrai_constant_box
#print axioms Fub.samrai_context_copy_shares
#print axioms Fub.samrai_coordinates_agree
#print axioms Fub.samrai_data_never_changes
#print axioms Fub.samrai_domain
#print axioms Fub.samrai_faces
#print axioms Fub.samrai_fill_first_partial
#print axioms Fub.samrai_fill_iff
#print axioms Fub.samrai_fill_source
#print axioms Fub.samrai_flux_storage
#print axioms Fub.samrai_grid_copies
#print axioms Fub.samrai_ids_distinct
#print axioms Fub.samrai_no_reflux
#print axioms Fub.samrai_pre_advance
#print axioms Fub.samrai_prefix_collision
#print axioms Fub.samrai_ratio
#print axioms Fub.samrai_register_again
#print axioms Fub.samrai_register_conflict
#print axioms Fub.samrai_restart_loses_time
#print axioms Fub.samrai_stale_boundaries
#print axioms Fub.samrai_store_iff
#print axioms Fub.samrai_tags
#print axioms Fub.samrai_update_cells_partial
#print axioms Fub.samrai_update_noop
#print axioms Fub.samrai_update_overrun
#print axioms Fub.samrai_view
#print axioms Fub.samrai_view_scalar
#print axioms Fub.samrai_view_throws
#print axioms Fub.saving_duration
#print axioms Fub.scalar_run_stable
#print axioms Fub.scalar_solvers_consistent
#print axioms Fub.scratch_level_step
#print axioms Fub.scratch_levels
#print axioms Fub.script_options
#print axioms Fub.script_options_leak
#print axioms Fub.second_blocks_ready
#print axioms Fub.second_output_current
#print axioms Fub.section_edge_fill_partial
#print axioms Fub.section_level_wrong
#print axioms Fub.section_reflective_fill_partial
#print axioms Fub.segDistance_spec
#print axioms Fub.select_inRange
#print axioms Fub.setIsentropic_partial
#print axioms Fub.setIsentropic_species_wrong
#print axioms Fub.setPressureIsentropic_spec
#print axioms Fub.set_energy_converges
#print axioms Fub.set_energy_gap
#print axioms Fub.set_energy_lanes_converge
#print axioms Fub.set_energy_too_far
#print axioms Fub.set_mass_fractions_densities
#print axioms Fub.set_mass_fractions_empty
#print axioms Fub.set_mass_fractions_spec
#print axioms Fub.set_mole_fractions_spec
#print axioms Fub.set_pressure_round_trip
#print axioms Fub.seventeen_digits
#print axioms Fub.shift_spec
#print axioms Fub.shock_gap
#print axioms Fub.shrink_spec
#print axioms Fub.sideways_uncoupled
#print axioms Fub.six_digits_lose
#print axioms Fub.slanted_average_partial
#print axioms Fub.slanted_average_range
#print axioms Fub.slanted_front_ignored
#print axioms Fub.slanted_front_wrong
#print axioms Fub.slanted_full_cells_partial
#print axioms Fub.slanted_ghosts
#print axioms Fub.slanted_ghosts_kept
#print axioms Fub.slanted_no_wall
#print axioms Fub.sliceLast_addr
#print axioms Fub.slice_average
#print axioms Fub.slice_average_range
#print axioms Fub.smooth_gs_converges
#print axioms Fub.smooth_jacobi_converges
#print axioms Fub.span_last_dynamic
#print axioms Fub.span_last_partial
#print axioms Fub.span_sub
#print axioms Fub.splitDirections_alternate
#print axioms Fub.splitDirections_perm
#print axioms Fub.stableDtSeq_partial
#print axioms Fub.stableDtSimd_spec
#print axioms Fub.stableDt_seq_differs
#print axioms Fub.stableDt_seq_infinite
#print axioms Fub.stableDt_simd_le_seq
#print axioms Fub.stableDt_tiles_differ
#print axioms Fub.state_component_count
#print axioms Fub.state_component_get
#print axioms Fub.state_component_range
#print axioms Fub.state_component_set
#print axioms Fub.state_store_load
#print axioms Fub.stencil_range
#print axioms Fub.storeN_lanes
#print axioms Fub.stored_points
#print axioms Fub.straight_coarsen_conserves
#print axioms Fub.strang3_schedule
#print axioms Fub.strang_direction_counts
#print axioms Fub.strang_schedule
#print axioms Fub.strided_overlap
#print axioms Fub.strided_partial
#print axioms Fub.subcycle_schedule
#print axioms Fub.subcycle_total_time
#print axioms Fub.subspan_elem
#print axioms Fub.subspan_empty_misplaced
#print axioms Fub.subspan_ext_partial
#print axioms Fub.subspan_size
#print axioms Fub.substeps_stable
#print axioms Fub.subview_addr
#print axioms Fub.subview_box_partial
#print axioms Fub.subview_components
#print axioms Fub.sw_dry_bed_throws
#print axioms Fub.sw_exact_signals
#print axioms Fub.sw_flux_false
#print axioms Fub.sw_flux_partial
#print axioms Fub.sw_hll_step_positive
#print axioms Fub.sw_middle_unique
#print axioms Fub.sw_newton_converges
#print axioms Fub.sw_newton_derivative
#print axioms Fub.sw_riemann_exact
#print axioms Fub.sw_sample_exact
#print axioms Fub.sw_signals
#print axioms Fub.sw_solver_consistent
#print axioms Fub.system_source_error
#print axioms Fub.system_source_order
#print axioms Fub.system_source_stable
#print axioms Fub.tagAllOf_spec
#print axioms Fub.tagBuffer1_out_of_range
#print axioms Fub.tagBuffer1_wrong
#print axioms Fub.tagBuffer2_covers
#print axioms Fub.tagBuffer2_partial
#print axioms Fub.tagBuffer2_wrong
#print axioms Fub.tagBuffer3_partial
#print axioms Fub.tagBuffer3_tags_all
#print axioms Fub.tagBuffer_zero
#print axioms Fub.tagCutCells_spec
#print axioms Fub.tc_advance_drift
#print axioms Fub.tc_advance_state
#print axioms Fub.tc_consistent
#print axioms Fub.tc_energy_partial
#print axioms Fub.tc_energy_stale
#print axioms Fub.tc_gas_law_partial
#print axioms Fub.tc_isentropic_slope
#print axioms Fub.tc_isentropic_stale
#print axioms Fub.tc_pressure_stale
#print axioms Fub.tc_set_energy_converges
#print axioms Fub.tc_set_energy_memoryless
#print axioms Fub.tc_set_energy_state
#print axioms Fub.tc_text_stale
#print axioms Fub.tc_thermo_partial
#print axioms Fub.tc_thermo_uninitialised
#print axioms Fub.temperatureForDelay_overshoot
#print axioms Fub.temperatureForDelay_partial
#print axioms Fub.temperatureForDelay_sound
#print axioms Fub.timer_lost
#print axioms Fub.timer_once_partial
#print axioms Fub.timer_value
#print axioms Fub.too_few_ghost_cells
#print axioms Fub.transmissive_fill
#print axioms Fub.tubePlanes_get
#print axioms Fub.tube_closed
#print axioms Fub.tube_energy
#print axioms Fub.tube_fuel
#print axioms Fub.tube_gain
#print axioms Fub.tube_inflow
#print axioms Fub.tube_mean
#print axioms Fub.tube_open
#print axioms Fub.tube_outflow
#print axioms Fub.tube_probe_files_not_renamed
#print axioms Fub.tube_probe_outside
#print axioms Fub.tube_probe_seen
#print axioms Fub.tube_probes_are_first_tube
#print axioms Fub.tube_probes_partial
#print axioms Fub.tube_probes_wrong
#print axioms Fub.tube_sections_disjoint
#print axioms Fub.tube_solid_partial
#print axioms Fub.tube_straight_wrong
#print axioms Fub.turbine_average_massflow
#print axioms Fub.turbine_cellwise
#print axioms Fub.turbine_flux_doubled
#print axioms Fub.turbine_flux_offset
#print axioms Fub.turbine_flux_partial
#print axioms Fub.turbine_flux_wrong
#print axioms Fub.turbine_ghost_enthalpy
#print axioms Fub.turbine_ghost_expanding
#print axioms Fub.turbine_ghost_partial
#print axioms Fub.turbine_ghost_scalars
#print axioms Fub.turbine_inner_partial
#print axioms Fub.turbine_level_wrong
#print axioms Fub.turbine_outer_state
#print axioms Fub.turbine_outer_stops
#print axioms Fub.turbine_same_total
#print axioms Fub.turbine_section_ignored
#print axioms Fub.turbine_section_wrong
#print axioms Fub.turbine_state
#print axioms Fub.uncoupled_run
#print axioms Fub.union_solid
#print axioms Fub.unshielded_centroid_partial
#print axioms Fub.unshielded_centroid_wrong
#print axioms Fub.updateSeq_spec
#print axioms Fub.updateSimd_empty
#print axioms Fub.updateSimd_eq
#print axioms Fub.update_conservative
#print axioms Fub.valveAir_spec
#print axioms Fub.valveAir_twice
#print axioms Fub.valveFuel_spec
#print axioms Fub.valveFuel_twice
#print axioms Fub.valve_changes_massflow
#print axioms Fub.valve_fluxes
#print axioms Fub.valve_fuel_start
#print axioms Fub.valve_negative_offset
#print axioms Fub.valve_round_trip
#print axioms Fub.valve_schedule
#print axioms Fub.valve_transitions
#print axioms Fub.valve_uniform_gas
#print axioms Fub.vanLeer_hyps
#print axioms Fub.vector_views_wrong
#print axioms Fub.view_components
#print axioms Fub.volume_average
#print axioms Fub.volume_average_closed
#print axioms Fub.volume_average_range
#print axioms Fub.wallArea_eq
#print axioms Fub.wall_compatible
#print axioms Fub.wall_cross_not_conservative
#print axioms Fub.wall_energy
#print axioms Fub.wall_green
#print axioms Fub.wall_middle
#print axioms Fub.wall_projection
#print axioms Fub.wall_residual
#print axioms Fub.wall_riemann
#print axioms Fub.wall_symmetric
#print axioms Fub.wall_unique
#print axioms Fub.withFuel_ratio
#print axioms Fub.wrap_base
#print axioms Fub.wrap_last
