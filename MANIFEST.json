{
 "claims": [
  {
   "property": "C01",
   "status": "proved",
   "theorems": [
    "Verif.Tree.touching_blocks_balanced"
   ],
   "note": ""
  },
  {
   "property": "C02",
   "status": "proved",
   "theorems": [
    "Verif.Tree.blocks_tile_domain"
   ],
   "note": ""
  },
  {
   "property": "C03",
   "status": "proved",
   "theorems": [
    "Verif.Tree.add_block_honoured",
    "Verif.Tree.add_block_minimal",
    "Verif.Tree.refine_honoured",
    "Verif.Tree.addMeshBlock_eq_walk"
   ],
   "note": "Also: the result is the coarsest admissible mesh (add_block_minimal)."
  },
  {
   "property": "C04",
   "status": "proved",
   "theorems": [
    "Verif.Tree.numbering_bijective"
   ],
   "note": ""
  },
  {
   "property": "C05",
   "status": "proved",
   "theorems": [
    "Verif.Tree.old_gid_map"
   ],
   "note": ""
  },
  {
   "property": "C06",
   "status": "proved",
   "theorems": [
    "Verif.Tree.created_counter_exact",
    "Verif.Tree.deleted_counter_exact"
   ],
   "note": ""
  },
  {
   "property": "C07",
   "status": "proved",
   "theorems": [
    "Verif.Tree.neighbor_search_total"
   ],
   "note": ""
  },
  {
   "property": "C08",
   "status": "proved",
   "theorems": [
    "Verif.Tree.neighbor_symmetric_same",
    "Verif.Tree.neighbor_symmetric_coarse"
   ],
   "note": ""
  },
  {
   "property": "C09",
   "status": "proved",
   "theorems": [
    "Verif.Tree.derefine_safe_complete",
    "Verif.Tree.touching_blocks_balanced",
    "Verif.Tree.blocks_tile_domain"
   ],
   "note": ""
  },
  {
   "property": "C10",
   "status": "proved",
   "theorems": [
    "Verif.Tree.restart_same_tree"
   ],
   "note": "All meshes, with or without poles."
  },
  {
   "property": "C11",
   "status": "partial",
   "theorems": [
    "Verif.Tree.polar_refine_unbalanced",
    "Verif.Tree.polar_derefine_unbalanced",
    "Verif.Tree.outer_pole_balanced_partial"
   ],
   "note": "False of the code: negations with concrete reachable meshes (inner pole: Refine; outer pole: Derefine). Proved for meshes with an outer pole only and histories without derefinement."
  },
  {
   "property": "C12",
   "status": "proved",
   "theorems": [
    "Verif.Tree.regions_resolved",
    "Verif.Tree.region_at_upper_edge_fails"
   ],
   "note": "The constructor accepts a zero-width region at the upper mesh edge, for which it fails (region_at_upper_edge_fails)."
  },
  {
   "property": "C13",
   "status": "proved",
   "theorems": [
    "Verif.LoadBalance.ranges_partition"
   ],
   "note": ""
  },
  {
   "property": "C14",
   "status": "proved",
   "theorems": [
    "Verif.LoadBalance.positive_costs_never_abort",
    "Verif.LoadBalance.zero_costs_abort"
   ],
   "note": "All-zero costs do abort (zero_costs_abort)."
  },
  {
   "property": "C15",
   "status": "proved",
   "theorems": [
    "Verif.Tree.migration_messages_pair",
    "Verif.Tree.migration_ranks",
    "Verif.Tree.migration_complete",
    "Verif.Tree.migration_kind",
    "Verif.Tree.migration_counts",
    "Verif.Tree.ffc_messages_pair",
    "Verif.Tree.ffc_pairs_exact",
    "Verif.Tree.migration_tags_unique",
    "Verif.Tree.intervals_of_loadBalance"
   ],
   "note": "Meshes without polar boundaries."
  },
  {
   "property": "C16",
   "status": "partial",
   "theorems": [
    "Verif.AmrFlag.manual_costs_ignored",
    "Verif.AmrFlag.manual_cost_partial"
   ],
   "note": "False of the code: std::min(cost, TINY_NUMBER) maps all ordinary costs to the same value."
  },
  {
   "property": "C17",
   "status": "proved",
   "theorems": [
    "Verif.AmrFlag.refine_flag_spec"
   ],
   "note": ""
  },
  {
   "property": "C18",
   "status": "proved",
   "theorems": [
    "Verif.Tree.groups_exact",
    "Verif.Tree.adapt_independent_of_ranks",
    "Verif.Tree.adapt_step_safe",
    "Verif.Tree.adapt_step_total"
   ],
   "note": "Poles allowed in adapt_step_safe; absence of crashes (adapt_step_total) without poles."
  },
  {
   "property": "C19",
   "status": "proved",
   "theorems": [
    "Verif.TaskList.sched_attempts_legal",
    "Verif.TaskList.sched_exactly_once",
    "Verif.TaskList.sched_stage_exit",
    "Verif.TaskList.sched_empty_list_hangs"
   ],
   "note": "An empty task list makes the stage loop forever (sched_empty_list_hangs); all other lists behave."
  },
  {
   "property": "C20",
   "status": "proved",
   "theorems": [
    "Verif.TaskList.sched_world_terminates",
    "Verif.TaskList.main_no_deadlock",
    "Verif.TaskList.sts_no_deadlock"
   ],
   "note": "Fairness and eventual delivery of messages are hypotheses."
  },
  {
   "property": "C21",
   "status": "proved",
   "theorems": [
    "Verif.TaskList.taskId_ofId_singleton",
    "Verif.TaskList.taskId_ofId_out_of_range",
    "Verif.TaskList.taskId_clear",
    "Verif.TaskList.taskId_or",
    "Verif.TaskList.taskId_setFinished",
    "Verif.TaskList.taskId_checkDependencies",
    "Verif.TaskList.taskId_isUnfinished",
    "Verif.TaskList.taskId_beq"
   ],
   "note": ""
  },
  {
   "property": "C22",
   "status": "proved",
   "theorems": [
    "Verif.TaskList.main_graph_acyclic",
    "Verif.TaskList.sts_graph_acyclic",
    "Verif.TaskList.main_no_deadlock",
    "Verif.TaskList.sts_no_deadlock"
   ],
   "note": "Exhaustive over all configurations of the main and super-time-stepping integrators."
  },
  {
   "property": "C23",
   "status": "proved",
   "theorems": [
    "Verif.TaskList.sched_must_precede",
    "Verif.TaskList.main_clear_last",
    "Verif.TaskList.sts_clear_last"
   ],
   "note": ""
  },
  {
   "property": "C24",
   "status": "proved",
   "theorems": [
    "Verif.Params.last_write_wins",
    "Verif.Params.exists_iff_readable"
   ],
   "note": ""
  },
  {
   "property": "C25",
   "status": "proved",
   "theorems": [
    "Verif.Params.dump_reload",
    "Verif.Params.hash_before_equals_changes",
    "Verif.Params.indented_header_name"
   ],
   "note": "Input in the documented form; outside it the claim is false (hash_before_equals_changes)."
  },
  {
   "property": "C26",
   "status": "proved",
   "theorems": [
    "Verif.Params.cmdline_frame",
    "Verif.Params.cmdline_aborts_iff",
    "Verif.Params.argTarget_plain",
    "Verif.Params.argTarget_other",
    "Verif.Params.path_with_equals_aborts"
   ],
   "note": ""
  },
  {
   "property": "C27",
   "status": "proved",
   "theorems": [
    "Verif.Params.getOrAddString_spec",
    "Verif.Params.getOrAddInteger_spec",
    "Verif.Params.getOrAddBoolean_spec",
    "Verif.Params.getOrAddReal_idempotent_iff",
    "Verif.Params.getOrAddReal_not_idempotent",
    "Verif.Params.empty_boolean_uninitialised",
    "Verif.Params.boolean_word"
   ],
   "note": "Reals are idempotent only if the default survives printing; the six-digit printing of the code loses values."
  },
  {
   "property": "C28",
   "status": "proved",
   "theorems": [
    "Verif.Params.chunking_irrelevant",
    "Verif.Params.restart_header",
    "Verif.Params.input_without_marker",
    "Verif.Params.marker_in_comment_misplaces"
   ],
   "note": "Marker must not occur inside the parameters."
  },
  {
   "property": "C29",
   "status": "proved",
   "theorems": [
    "Verif.Params.restart_schedule",
    "Verif.Params.restart_total",
    "Verif.Params.forwardTime_spec",
    "Verif.Params.forwardTime_fresh",
    "Verif.Params.late_start_moves_earlier",
    "Verif.Params.fresh_flag_leaks"
   ],
   "note": "Exact arithmetic and printing."
  },
  {
   "property": "C30",
   "status": "proved",
   "theorems": [
    "Verif.Restart.restart_writes",
    "Verif.Restart.restart_roundtrip",
    "Verif.Restart.collective_calls",
    "Verif.Restart.single_precision_list"
   ],
   "note": "Real must have the size of double; otherwise false (single_precision_list)."
  },
  {
   "property": "C31",
   "status": "partial",
   "theorems": [
    "Verif.Restart.gray_consumed",
    "Verif.Restart.gray_size_partial",
    "Verif.Restart.gray_size_wrong"
   ],
   "note": "False with chemistry; proved without."
  },
  {
   "property": "C32",
   "status": "proved",
   "theorems": [
    "Verif.Arr.pack3_frame",
    "Verif.Arr.pack4_frame",
    "Verif.Arr.pack5_frame",
    "Verif.Arr.pack_unpack3",
    "Verif.Arr.pack_unpack4",
    "Verif.Arr.pack_unpack5"
   ],
   "note": "Integers unbounded."
  },
  {
   "property": "C33",
   "status": "proved",
   "theorems": [
    "Verif.Arr.elements1",
    "Verif.Arr.elements2",
    "Verif.Arr.elements3",
    "Verif.Arr.elements4",
    "Verif.Arr.elements5",
    "Verif.Arr.elements6",
    "Verif.Arr.slice_elements",
    "Verif.Arr.slice_extent",
    "Verif.Arr.pencil_elements",
    "Verif.Arr.copyAssign_elements"
   ],
   "note": "Integers unbounded. Also shallow slices and deep copies."
  },
  {
   "property": "C34",
   "status": "proved",
   "theorems": [
    "Verif.Tree.bvalsTag_injective",
    "Verif.Tree.send_has_unique_receive",
    "Verif.Tree.receive_has_unique_send",
    "Verif.Tree.poleTag_injective_partial",
    "Verif.Tree.pole_tags_collide",
    "Verif.Tree.migration_tags_unique"
   ],
   "note": "Without polar or shearing boundaries; local ids below 2^20 (tag field). False for the pole correction with more than 64 azimuthal blocks (pole_tags_collide)."
  },
  {
   "property": "C35",
   "status": "proved",
   "theorems": [
    "Verif.Tree.neighbor_list_total",
    "Verif.Tree.neighbor_list_exact",
    "Verif.Tree.neighbor_slots",
    "Verif.Tree.neighbor_slots_pair"
   ],
   "note": "Meshes without polar or shearing boundaries."
  },
  {
   "property": "C36",
   "status": "proved",
   "theorems": [
    "Verif.Ghost.ghost_buffer",
    "Verif.Ghost.ghost_message",
    "Verif.Ghost.ghost_message_active",
    "Verif.Ghost.ghost_data",
    "Verif.Ghost.ghost_small_blocks_witness"
   ],
   "note": "Meshes without polar or shearing boundaries. Blocks with fewer than 2*NGHOST cells send ghost cells when the mesh is refined (ghost_small_blocks_witness)."
  },
  {
   "property": "C37",
   "status": "proved",
   "theorems": [
    "Verif.Ghost.ghost_filled_once",
    "Verif.Ghost.ghost_not_filled"
   ],
   "note": "Meshes without polar or shearing boundaries."
  },
  {
   "property": "C38",
   "status": "proved",
   "theorems": [
    "Verif.Exchange.exchange_in_order",
    "Verif.Exchange.exchange_current",
    "Verif.Exchange.exchange_no_error",
    "Verif.Exchange.exchange_no_overwrite",
    "Verif.Exchange.exchange_lockstep",
    "Verif.Exchange.exchange_bounded",
    "Verif.Exchange.exchange_no_deadlock",
    "Verif.Exchange.exchange_live",
    "Verif.Exchange.exchange_can_go_on",
    "Verif.Exchange.mesh_net",
    "Verif.Exchange.mesh_net_paired",
    "Verif.Exchange.mesh_exchange"
   ],
   "note": "All interleavings of the cell-centred (and equally face-centred) variable exchange; MPI by its guarantees. Meshes without polar or shearing boundaries for the instantiation."
  },
  {
   "property": "C39",
   "status": "proved",
   "theorems": [
    "Verif.Grid.block_balance",
    "Verif.Grid.update_only_active",
    "Verif.Grid.correction_exact",
    "Verif.Grid.correction_other_faces",
    "Verif.Grid.message_length",
    "Verif.Grid.total_conserved"
   ],
   "note": "Exact arithmetic over any field; 1D, 2D and 3D; whole mesh with any mixture of same-level, finer and coarser neighbours and any arrival order of the corrections. Shearing-box flux remapping is not modelled."
  },
  {
   "property": "C40",
   "status": "proved",
   "theorems": [
    "Verif.Grid.ct_keeps_divergence",
    "Verif.Grid.ct_keeps_divergence_all_faces",
    "Verif.Grid.ct_only_active",
    "Verif.Grid.ct_shared_face"
   ],
   "note": "Exact arithmetic over any field; 1D, 2D, 3D; cells at a pole under the conditions set by the pole treatment (zero area, zero azimuthal length, axial field equal for all azimuths)."
  },
  {
   "property": "C41",
   "status": "proved",
   "theorems": [
    "Verif.Grid.restrict_integral",
    "Verif.Grid.restrict_between",
    "Verif.Grid.restrict_elsewhere",
    "Verif.Grid.restrict_block_integral",
    "Verif.Grid.prolong_integral",
    "Verif.Grid.prolong_between",
    "Verif.Grid.prolong_linear",
    "Verif.Grid.prolong_elsewhere",
    "Verif.Grid.restrict_prolong",
    "Verif.Grid.uniform_conditions"
   ],
   "note": "Exact arithmetic over any ordered field; 1D, 2D, 3D; any mesh whose coarse centres are the centres of volume of their fine cells (uniform Cartesian meshes among them). The overloads for radiation arrays are not modelled."
  },
  {
   "property": "C42",
   "status": "proved",
   "theorems": [
    "Verif.Grid.restrict_flux1",
    "Verif.Grid.restrict_flux2",
    "Verif.Grid.restrict_flux3",
    "Verif.Grid.restrict_prolong1",
    "Verif.Grid.restrict_prolong2",
    "Verif.Grid.restrict_prolong3",
    "Verif.Grid.prolong_share",
    "Verif.Grid.prolong_share1",
    "Verif.Grid.prolong_divergence_free",
    "Verif.Grid.uniform_fit",
    "Verif.Grid.restrict_pole_reads_stale"
   ],
   "note": "Exact arithmetic; equal shares in 2D and 3D, in 1D the second fine cell gets all. Restriction of x2 faces on a pole reads scratch entries it has not set (restrict_pole_reads_stale)."
  },
  {
   "property": "C43",
   "status": "proved",
   "theorems": [
    "Verif.Integrator.rk1_euler",
    "Verif.Integrator.rk2_heun",
    "Verif.Integrator.vl2_midpoint",
    "Verif.Integrator.rk3_ssp3",
    "Verif.Integrator.rk4_fourth",
    "Verif.Integrator.ssprk54_fourth",
    "Verif.Integrator.linear_taylor"
   ],
   "note": "Exact arithmetic; ONE_3RD and TWO_3RD taken as fractions. vl2 with the low-order flux in the predictor. Order as Butcher's conditions, plus exactness for linear fluxes."
  },
  {
   "property": "C44",
   "status": "partial",
   "theorems": [
    "Verif.Integrator.stage_times_partial",
    "Verif.Integrator.rk4_times_wrong",
    "Verif.Integrator.ssprk54_times_wrong",
    "Verif.Integrator.time_source_wrong",
    "Verif.Integrator.time_source_right"
   ],
   "note": "False of the code for rk4 and ssprk5_4; proved for the other integrators without orbital advection."
  },
  {
   "property": "C45",
   "status": "partial",
   "theorems": [
    "Verif.Integrator.consistent_partial",
    "Verif.Integrator.ssprk54_orbital_wrong",
    "Verif.Integrator.ssprk54_source_wrong",
    "Verif.Integrator.source_weight"
   ],
   "note": "False of the code with second-order orbital splitting, and for sources; proved for all other configurations and integrators."
  },
  {
   "property": "C46",
   "status": "proved",
   "theorems": [
    "Verif.Riemann.hlle_formula",
    "Verif.Riemann.hlle_consistent",
    "Verif.Riemann.hlle_upwind_left",
    "Verif.Riemann.hlle_upwind_right",
    "Verif.Riemann.llf_formula",
    "Verif.Riemann.llf_consistent",
    "Verif.Riemann.llf_density_pos",
    "Verif.Riemann.hllc_speeds",
    "Verif.Riemann.hllc_contact",
    "Verif.Riemann.hllc_consistent",
    "Verif.Riemann.hllc_waves",
    "Verif.Riemann.lhllc_contact",
    "Verif.Riemann.lhllc_consistent",
    "Verif.Riemann.roe_waves",
    "Verif.Riemann.roe_isolated",
    "Verif.Riemann.roe_waves_iso",
    "Verif.Riemann.roe_isolated_iso",
    "Verif.Riemann.roe_consistent",
    "Verif.Riemann.hlle_mirror",
    "Verif.Riemann.llf_mirror",
    "Verif.Riemann.hllc_mirror",
    "Verif.Riemann.lhllc_mirror",
    "Verif.Riemann.roe_mirror",
    "Verif.Riemann.roe_mirror_iso",
    "Verif.Riemann.wall",
    "Verif.Riemann.lhllc_pressure",
    "Verif.Riemann.lhllc_is_hllc"
   ],
   "note": "The solvers without magnetic field, without general equation of state, exact real arithmetic. The solvers with a magnetic field are C59."
  },
  {
   "property": "C47",
   "status": "proved",
   "theorems": [
    "Verif.Recon.donor_x1",
    "Verif.Recon.donor_transverse",
    "Verif.Recon.plm_x1_limited",
    "Verif.Recon.plm_x2_limited",
    "Verif.Recon.plm_x3_limited",
    "Verif.Recon.plm_x1_extremum",
    "Verif.Recon.plm_x2_extremum",
    "Verif.Recon.plm_x3_extremum",
    "Verif.Recon.plm_x1_linear",
    "Verif.Recon.plm_x2_linear",
    "Verif.Recon.plm_x3_linear",
    "Verif.Recon.plm_x1_scratch",
    "Verif.Recon.plm_x1_elsewhere",
    "Verif.Recon.plm_x1_stale",
    "Verif.Recon.plm_mesh_overshoot",
    "Verif.Recon.plm_x3_overshoot",
    "Verif.Recon.smooth_of_ratio",
    "Verif.Recon.plm_radial_mesh",
    "Verif.Recon.ppm_x1_limited",
    "Verif.Recon.ppm_transverse_limited",
    "Verif.Recon.ppm_uniform_limited",
    "Verif.Recon.ppm_extremum",
    "Verif.Recon.ppm_constant",
    "Verif.Recon.ppm_uniform_overshoot",
    "Verif.Recon.ppm_uniform_linear",
    "Verif.Recon.ppm_uniform_cubic",
    "Verif.Recon.ppm_stretched_cubic",
    "Verif.Recon.ppm_cyl_cubic",
    "Verif.Recon.ppm_sph_cubic",
    "Verif.Recon.ppm_radial_ratios",
    "Verif.Recon.ppm_radial_extremum",
    "Verif.Recon.ppm_radial_offset"
   ],
   "note": "Narrowed to the meshes on which it holds; outside them it is false of the code (plm_mesh_overshoot, plm_x3_overshoot, plm_x1_stale, ppm_radial_offset). Characteristic variants and polar-angle weights are not modelled."
  },
  {
   "property": "C48",
   "status": "proved",
   "theorems": [
    "Verif.Eos.cons_to_prim",
    "Verif.Eos.cons_to_prim_conserves",
    "Verif.Eos.cons_to_prim_elsewhere",
    "Verif.Eos.prim_to_cons",
    "Verif.Eos.prim_round_trip",
    "Verif.Eos.cons_round_trip",
    "Verif.Eos.cons_to_prim_idempotent",
    "Verif.Eos.cell_field",
    "Verif.Eos.cons_to_prim_field",
    "Verif.Eos.scalar_to_prim",
    "Verif.Eos.scalar_round_trip",
    "Verif.Eos.avg_floors",
    "Verif.Eos.avg_conserves",
    "Verif.Eos.avg_flat",
    "Verif.Eos.scalar_avg_floor_1d",
    "Verif.Eos.scalar_avg_unfloored",
    "Verif.Eos.scalar_avg_floor_2d_fails"
   ],
   "note": "Exact arithmetic over any ordered field; the four non-relativistic gamma-law and isothermal files. The fourth-order scalar floor is false of the code in 2D and 3D (scalar_avg_floor_2d_fails)."
  },
  {
   "property": "C49",
   "status": "partial",
   "theorems": [
    "Verif.TimeStep.new_dt",
    "Verif.TimeStep.new_dt_needs_block",
    "Verif.TimeStep.cycle_dt",
    "Verif.TimeStep.run_time",
    "Verif.TimeStep.run_terminates",
    "Verif.TimeStep.restart_same_step",
    "Verif.TimeStep.fixed_cycle",
    "Verif.TimeStep.fixed_run",
    "Verif.TimeStep.fixed_lands",
    "Verif.TimeStep.fixed_never_ends",
    "Verif.TimeStep.remesh_quadruples",
    "Verif.TimeStep.restart_changes_step",
    "Verif.TimeStep.fixed_overshoots",
    "Verif.TimeStep.courant",
    "Verif.TimeStep.courant_hydro",
    "Verif.TimeStep.block_limits",
    "Verif.TimeStep.block_positive",
    "Verif.TimeStep.diffusive_limit",
    "Verif.TimeStep.soundSpeed_sq",
    "Verif.TimeStep.fastSpeed_spec",
    "Verif.TimeStep.fastSpeed_mono",
    "Verif.TimeStep.mhdSpeed_ge_partial",
    "Verif.TimeStep.mhdSpeed_sign"
   ],
   "note": "Exact arithmetic. Partial because the signal speed used with a magnetic field bounds the fast speed only where the normal field at the cell centre is not negative (false otherwise, mhdSpeed_sign); everything else in the statement is proved, and its exceptions are proved by witnesses."
  },
  {
   "property": "C50",
   "status": "proved",
   "theorems": [
    "Verif.Ran2.draw_continue",
    "Verif.Ran2.draw_init",
    "Verif.Ran2.draw_safe",
    "Verif.Ran2.draws_safe",
    "Verif.Ran2.large_seed_out_of_range"
   ],
   "note": "Seeds of magnitude below the first modulus; beyond it the claim is false (large_seed_out_of_range)."
  },
  {
   "property": "C51",
   "status": "proved",
   "theorems": [
    "Verif.MeshGen.standard_genOk",
    "Verif.MeshGen.standard_pos",
    "Verif.MeshGen.faces_spec",
    "Verif.MeshGen.faces_increase",
    "Verif.MeshGen.faces_shown",
    "Verif.MeshGen.faces_order",
    "Verif.MeshGen.faces_neighbor",
    "Verif.MeshGen.faces_ratio",
    "Verif.MeshGen.block_ranges",
    "Verif.MeshGen.block_flags",
    "Verif.MeshGen.region_faces"
   ],
   "note": "Exact arithmetic; one direction with more than one cell."
  },
  {
   "property": "C52",
   "status": "proved",
   "theorems": [
    "Verif.Grid.boundaries_complete",
    "Verif.Grid.boundary_cells",
    "Verif.Grid.boundary_scalars",
    "Verif.Grid.boundary_x1f",
    "Verif.Grid.boundary_x2f",
    "Verif.Grid.boundary_x3f",
    "Verif.Grid.boundary_elsewhere",
    "Verif.Grid.boundary_active",
    "Verif.Grid.boundary_coherent",
    "Verif.Grid.boundary_pole_stale",
    "Verif.Grid.wedge_x1_fatal",
    "Verif.Grid.boundary_conserved_elsewhere",
    "Verif.Grid.reflecting_wall",
    "Verif.Grid.outflow_copies",
    "Verif.Grid.boundary_idempotent"
   ],
   "note": "Blocks with at least NGHOST cells per direction. Field and conserved variables in ghost cells are consistent unless the field on a polar wedge is nonzero (boundary_pole_stale)."
  },
  {
   "property": "C53",
   "status": "partial",
   "theorems": [
    "Verif.TaskList.main_data_flow",
    "Verif.TaskList.sts_data_flow",
    "Verif.TaskList.main_source_flow_partial",
    "Verif.TaskList.source_before_integrate_race",
    "Verif.TaskList.primitives_before_source_race",
    "Verif.TaskList.primitives_before_send_race"
   ],
   "note": "False for radiation or cosmic-ray source terms on refined or shearing meshes (race witnesses proved); all other requirements hold in every execution."
  },
  {
   "property": "C54",
   "status": "proved",
   "theorems": [
    "Verif.LoadBalance.load_bound"
   ],
   "note": ""
  },
  {
   "property": "C55",
   "status": "partial",
   "theorems": [
    "Verif.Tree.derefine_complete_partial",
    "Verif.Tree.derefine_missed"
   ],
   "note": "False of the code as stated: the last group is left out of the sort (derefine_missed). derefine_complete_partial allows exactly that exception."
  },
  {
   "property": "C56",
   "status": "partial",
   "theorems": [
    "Verif.Integrator.weightedAve_sum",
    "Verif.Integrator.weightedAve_none_iff",
    "Verif.Integrator.weightedAveFace_sum_partial",
    "Verif.Integrator.weightedAveFace_wrong"
   ],
   "note": "Face fields: false in one branch (typo in an index), which no caller reaches."
  },
  {
   "property": "C57",
   "status": "partial",
   "theorems": [
    "Verif.Integrator.orbital_first",
    "Verif.Integrator.orbital_second",
    "Verif.Integrator.ssprk54_orbital_wrong"
   ],
   "note": "All integrators except ssprk5_4 with second-order splitting, for which it is false."
  },
  {
   "property": "C58",
   "status": "proved",
   "theorems": [
    "Verif.TimeStep.sts_stages",
    "Verif.Sts.rkl2_second_order",
    "Verif.Sts.rkl1_first_order",
    "Verif.Sts.modes_decay",
    "Verif.Sts.sts_conserves",
    "Verif.Sts.sts_steady",
    "Verif.Sts.sts_stable"
   ],
   "note": "Exact arithmetic. Stability for right-hand sides with a basis of modes with real decay rates (diffusion); accuracy for affine right-hand sides, which fixes the order conditions up to second order."
  },
  {
   "property": "C59",
   "status": "partial",
   "theorems": [
    "Verif.Mhd.llf_formula",
    "Verif.Mhd.llf_consistent",
    "Verif.Mhd.hlle_formula",
    "Verif.Mhd.hlle_consistent",
    "Verif.Mhd.hlle_upwind_left",
    "Verif.Mhd.hlle_upwind_right",
    "Verif.Mhd.hlleA_pos",
    "Verif.Mhd.hlld_order",
    "Verif.Mhd.lhlld_order",
    "Verif.Mhd.hlld_pressure",
    "Verif.Mhd.lhlld_speed",
    "Verif.Mhd.lhlld_pressure",
    "Verif.Mhd.lhlld_is_hlld",
    "Verif.Mhd.hlld_waves",
    "Verif.Mhd.hlld_keeps",
    "Verif.Mhd.lhlld_keeps",
    "Verif.Mhd.hlld_consistent",
    "Verif.Mhd.lhlld_consistent",
    "Verif.Mhd.hlld_upwind",
    "Verif.Mhd.lhlld_upwind",
    "Verif.Mhd.hlldIso_waves",
    "Verif.Mhd.hlldIso_consistent",
    "Verif.Mhd.hlldIso_upwind",
    "Verif.Mhd.hlldIso_floor",
    "Verif.Mhd.roe_consistent",
    "Verif.Mhd.roe_upwind",
    "Verif.Mhd.roe_alfven_energy",
    "Verif.Mhd.roe_alfven_not_kept",
    "Verif.Mhd.roe_shear_central",
    "Verif.Mhd.roe_fallback_field",
    "Verif.Mhd.weight_spec",
    "Verif.Mhd.weight_upwind",
    "Verif.Mhd.llf_mirror",
    "Verif.Mhd.hlle_mirror",
    "Verif.Mhd.hlld_mirror",
    "Verif.Mhd.lhlld_mirror",
    "Verif.Mhd.hlldIso_mirror",
    "Verif.Mhd.llf_wall",
    "Verif.Mhd.hlle_wall",
    "Verif.Mhd.hlld_wall",
    "Verif.Mhd.lhlld_wall",
    "Verif.Mhd.hlldIso_wall",
    "Verif.Mhd.hlldIso_wall_floor"
   ],
   "note": "Exact real arithmetic. The degenerate cases of HLLD are outside hlld_waves and hlldIso_waves (jump conditions do not hold there in the code); Roe's solver fails the claim for rotational discontinuities and shear layers (witnesses proved); its Roe property is not proved. Reflection of Roe's solver is not proved (its energy flux is not symmetric). General equation of state and relativity are not modelled."
  },
  {
   "property": "C60",
   "status": "proved",
   "theorems": [
    "Verif.Scalars.flux_donor",
    "Verif.Scalars.flux_uniform",
    "Verif.Scalars.uniform_update",
    "Verif.Scalars.uniform_step",
    "Verif.Scalars.scalar_bounds",
    "Verif.Scalars.flux_limited",
    "Verif.Scalars.restrict_uniform",
    "Verif.Scalars.prolong_uniform",
    "Verif.Scalars.diffusion_uniform",
    "Verif.Scalars.diffusion_downhill",
    "Verif.Scalars.convert_floor",
    "Verif.Scalars.convert_round_trip",
    "Verif.Scalars.convert_bounds",
    "Verif.Scalars.fourth_order_floor_missed",
    "Verif.Scalars.fourth_order_floor_missed_3d",
    "Verif.Scalars.fourth_order_floor_hits",
    "Verif.Scalars.fourth_order_work_overrun"
   ],
   "note": "Exact arithmetic; donor cell, PLM, PPM. Fourth-order fluxes are not modelled; the fourth-order floor does not act on interior cells (proved)."
  },
  {
   "property": "C61",
   "status": "proved",
   "theorems": [
    "Verif.FluxMsg.faces_first",
    "Verif.FluxMsg.face_entries",
    "Verif.FluxMsg.correction_message",
    "Verif.FluxMsg.correction_expected",
    "Verif.FluxMsg.correction_size",
    "Verif.FluxMsg.correction_buffers",
    "Verif.FluxMsg.delivered_exists",
    "Verif.FluxMsg.mesh_conserved",
    "Verif.FluxMsg.mesh_conserved_grid"
   ],
   "note": "Meshes without polar or shearing boundaries. That blocks of the same level compute the same fluxes on a common face is a hypothesis."
  },
  {
   "property": "C62",
   "status": "proved",
   "theorems": [
    "Verif.Coord.measures",
    "Verif.Coord.measures_pos",
    "Verif.Coord.centroids",
    "Verif.Coord.face_centroids",
    "Verif.Coord.centroids_inside",
    "Verif.Coord.sources_momentum_only",
    "Verif.Coord.geometric_sources",
    "Verif.Coord.rest_stays",
    "Verif.Coord.rest_moves_off_equator",
    "Verif.Coord.angular_momentum_cell",
    "Verif.Coord.angular_momentum_block",
    "Verif.Coord.geom_nested",
    "Verif.Coord.mesh_conserved_coordinates",
    "Verif.Coord.mesh_angular_momentum"
   ],
   "note": "Angular momentum of the whole mesh on one level only. Gas at rest: with one cell in polar angle the cell must be symmetric about the equator (otherwise false, rest_moves_off_equator)."
  },
  {
   "property": "C63",
   "status": "proved",
   "theorems": [
    "Verif.Grid.corner_e",
    "Verif.Grid.weight_upwind",
    "Verif.Grid.no_stale_field",
    "Verif.Grid.planar_e",
    "Verif.Grid.planar_ct",
    "Verif.Grid.frozen_field",
    "Verif.Grid.uniform_flow",
    "Verif.Grid.cell_field",
    "Verif.Grid.cell_field_between",
    "Verif.Grid.cell_field_radial"
   ],
   "note": "Exactness of the cell-centred field at the volume centre: false of the code in cylindrical and spherical coordinates with mesh ratio 1 (cell_field_radial)."
  },
  {
   "property": "C64",
   "status": "proved",
   "theorems": [
    "Verif.SrcTerms.untouched",
    "Verif.SrcTerms.undefined_is_nothing",
    "Verif.SrcTerms.zero_step",
    "Verif.SrcTerms.no_heating_cartesian",
    "Verif.SrcTerms.no_heating_cylindrical",
    "Verif.SrcTerms.no_heating_spherical",
    "Verif.SrcTerms.user_velocity_field_energy",
    "Verif.SrcTerms.vertical_gravity_twice",
    "Verif.SrcTerms.inertial_cylindrical",
    "Verif.SrcTerms.inertial_spherical",
    "Verif.SrcTerms.azimuthal_force",
    "Verif.SrcTerms.kepler_balance",
    "Verif.SrcTerms.shear_background",
    "Verif.SrcTerms.shear_box_orbital",
    "Verif.SrcTerms.circular_deriv",
    "Verif.SrcTerms.default_derivatives",
    "Verif.SrcTerms.cyl3_z_wrong",
    "Verif.SrcTerms.conversion_consistent",
    "Verif.SrcTerms.convert_once",
    "Verif.SrcTerms.self_gravity_momentum"
   ],
   "note": "False of the code, with proved negations: work of forces with a user-defined orbital velocity and field in three dimensions (user_velocity_field_energy) and with default orbital advection in three dimensional cylindrical coordinates (vertical_gravity_twice); derivative in z of the cylindrical orbital velocity (cyl3_z_wrong)."
  },
  {
   "property": "C65",
   "status": "proved",
   "theorems": [
    "Verif.Mg.smooth_is_sweep",
    "Verif.Mg.two_colours",
    "Verif.Mg.smooth_fixed_iff",
    "Verif.Mg.defect_zero_iff",
    "Verif.Mg.smooth_energy",
    "Verif.Mg.smooth_block",
    "Verif.Mg.gauss_law",
    "Verif.Mg.physical_faces",
    "Verif.Mg.physical_periodic",
    "Verif.Mg.closed_source_zero_total",
    "Verif.Mg.subtract_average_total",
    "Verif.Mg.check_spec"
   ],
   "note": "Exact arithmetic; meshes without refinement for the solver; the energy is that with ghost cells held."
  },
  {
   "property": "C66",
   "status": "proved",
   "theorems": [
    "Verif.Mg.restrict_total",
    "Verif.Mg.restrict_outside",
    "Verif.Mg.correction_exact",
    "Verif.Mg.fmg_exact",
    "Verif.Mg.vcycle_fixed",
    "Verif.Mg.subtract_wrong_level"
   ],
   "note": "Exact arithmetic; V-cycle on meshes without refinement, each level one array. Rates of convergence are not claimed."
  },
  {
   "property": "C67",
   "status": "proved",
   "theorems": [
    "Verif.Mg.coarse_arrives_x1",
    "Verif.Mg.coarse_arrives_x2",
    "Verif.Mg.coarse_arrives_x3",
    "Verif.Mg.flux_x1",
    "Verif.Mg.flux_x2",
    "Verif.Mg.flux_x3",
    "Verif.Mg.affine_x1",
    "Verif.Mg.affine_x2",
    "Verif.Mg.affine_x3"
   ],
   "note": "Exact arithmetic; face neighbours of different level."
  },
  {
   "property": "C68",
   "status": "partial",
   "theorems": [
    "Verif.Mg.expansion2_sound",
    "Verif.Mg.expansion4_sound",
    "Verif.Mg.multipole2",
    "Verif.Mg.multipole4_error",
    "Verif.Mg.multipole4_partial",
    "Verif.Mg.multipole4_wrong",
    "Verif.Mg.center_no_dipole",
    "Verif.Mg.multipole_inner_x1",
    "Verif.Mg.multipole_outer_x1",
    "Verif.Mg.multipole_inner_x2",
    "Verif.Mg.multipole_outer_x2",
    "Verif.Mg.multipole_inner_x3",
    "Verif.Mg.multipole_outer_x3"
   ],
   "note": "Order 4 is false of the code: the zonal harmonic of degree three is wrong (multipole4_wrong); multipole4_partial assumes that the two moments concerned vanish. Exact arithmetic."
  },
  {
   "property": "C69",
   "status": "partial",
   "theorems": [
    "Verif.TaskList.mg_coarser_order_partial",
    "Verif.TaskList.mg_finer_order_partial",
    "Verif.TaskList.mg_fmg_order",
    "Verif.TaskList.mg_boundary_order",
    "Verif.TaskList.mg_no_deadlock",
    "Verif.TaskList.mg_coarser_hangs",
    "Verif.TaskList.mg_finer_hangs",
    "Verif.TaskList.mg_finer_one_pass"
   ],
   "note": "Proved for at most two smoothing passes (and at least one to the finest level). False of the code otherwise: mg_coarser_hangs, mg_finer_hangs, mg_finer_one_pass."
  },
  {
   "property": "C70",
   "status": "partial",
   "theorems": [
    "Verif.MgExchange.mg_exchange_in_order",
    "Verif.MgExchange.mg_exchange_no_overwrite",
    "Verif.MgExchange.mg_exchange_no_error",
    "Verif.MgExchange.mg_exchange_requests_free",
    "Verif.MgExchange.mg_exchange_no_deadlock",
    "Verif.MgExchange.mg_mesh_exchange_partial",
    "Verif.MgExchange.mg_exchange_race",
    "Verif.MgExchange.mg_exchange_race_lag",
    "Verif.MgExchange.mg_race_mesh"
   ],
   "note": "Proved where senders stay within two phases of receivers, which includes all meshes without refinement. False of the code on refined meshes: mg_exchange_race."
  },
  {
   "property": "C71",
   "status": "partial",
   "theorems": [
    "Verif.Orbital.orbital_displaces",
    "Verif.Orbital.orbital_displaces_scalars",
    "Verif.Orbital.orbital_whole_cells",
    "Verif.Orbital.orbital_linear_profile",
    "Verif.Orbital.orbital_plm_between",
    "Verif.Orbital.orbital_conserves",
    "Verif.Orbital.orbital_ppm_negative",
    "Verif.Orbital.offsets_fit",
    "Verif.Orbital.orbital_message_cc",
    "Verif.Orbital.orbital_message_fc",
    "Verif.Orbital.orbital_message_fits",
    "Verif.Orbital.orbital_limit",
    "Verif.Orbital.orbital_limit_reached"
   ],
   "note": "Proved for blocks of one level and time steps below the limit. False of the code at the limit: orbital_limit_reached."
  },
  {
   "property": "C72",
   "status": "partial",
   "theorems": [
    "Verif.Orbital.orbital_field_x1f",
    "Verif.Orbital.orbital_field_x3f_cartesian",
    "Verif.Orbital.orbital_field_x3f_factor",
    "Verif.Orbital.cylindrical_factor",
    "Verif.Orbital.orbital_field_x3f_cylindrical",
    "Verif.Orbital.orbital_field_x1f_spherical",
    "Verif.Orbital.orbital_field_x2f_spherical",
    "Verif.Orbital.spherical_factor",
    "Verif.Orbital.orbital_keeps_divergence1",
    "Verif.Orbital.orbital_keeps_divergence2"
   ],
   "note": "Divergence in all cases; displacement in Cartesian coordinates and of the radial field in cylindrical coordinates. False of the code for the vertical field in cylindrical coordinates: orbital_field_x3f_cylindrical; the exact factor is proved in the other cases."
  },
  {
   "property": "C73",
   "status": "partial",
   "theorems": [
    "Verif.Diffusion.energy_flux_once",
    "Verif.Diffusion.conduction_isothermal",
    "Verif.Diffusion.conduction_downhill",
    "Verif.Diffusion.conduction_bounds",
    "Verif.Diffusion.conduction_within",
    "Verif.Diffusion.conduction_undershoots"
   ],
   "note": "Bounds for equal densities on Cartesian meshes; false of the code for unequal densities: conduction_undershoots."
  },
  {
   "property": "C74",
   "status": "partial",
   "theorems": [
    "Verif.Diffusion.viscous_linear",
    "Verif.Diffusion.viscous_curvilinear",
    "Verif.Diffusion.viscous_work",
    "Verif.Diffusion.viscous_rigid",
    "Verif.Diffusion.viscous_rotation_cylindrical",
    "Verif.Diffusion.viscous_rotation_spherical",
    "Verif.Diffusion.viscous_spherical_asymmetric",
    "Verif.Diffusion.viscous_alternating",
    "Verif.Diffusion.viscous_growth"
   ],
   "note": "Stress for linear fields in Cartesian coordinates, rigid motions in all. Symmetry is false of the code in three-dimensional spherical coordinates (viscous_spherical_asymmetric), the time step allows growth (viscous_growth)."
  },
  {
   "property": "C75",
   "status": "partial",
   "theorems": [
    "Verif.Resist.current_potential",
    "Verif.Resist.current_linear",
    "Verif.Resist.current_cylindrical",
    "Verif.Resist.current_spherical",
    "Verif.Resist.ohmic_linear",
    "Verif.Resist.ambipolar_linear",
    "Verif.Resist.across_dissipates",
    "Verif.Resist.dissipation_1d",
    "Verif.Resist.emf_copies",
    "Verif.Resist.poynting_linear",
    "Verif.Resist.poynting_added",
    "Verif.Resist.ohmic_decay",
    "Verif.Resist.hall_no_emf",
    "Verif.Resist.hall_limits_dt"
   ],
   "note": "Decay for Ohmic resistivity on periodic uniform Cartesian meshes; with ambipolar diffusion pointwise in one dimension only. The last part is false of the code: the Hall diffusivity limits the time step and does nothing else."
  },
  {
   "property": "C76",
   "status": "partial",
   "theorems": [
    "Verif.Charact.left_eigen_mhd",
    "Verif.Charact.left_eigen_hydro",
    "Verif.Charact.right_left_mhd",
    "Verif.Charact.right_left_hydro",
    "Verif.Charact.right_left_lost",
    "Verif.Charact.plm_char_linear",
    "Verif.Charact.plm_char_arrays",
    "Verif.Charact.plm_char_flat"
   ],
   "note": "The inverse is exact unless the transverse field of the cell vanishes; there the claim is false of the code (right_left_lost, plm_char_flat)."
  },
  {
   "property": "C77",
   "status": "partial",
   "theorems": [
    "Verif.Sr.conserved_are_stress",
    "Verif.Sr.energy_exceeds_momentum",
    "Verif.Sr.conserved_determine_primitives",
    "Verif.Sr.invert_exact",
    "Verif.Sr.primitive_round_trip",
    "Verif.Sr.inversion_accuracy",
    "Verif.Sr.invert_lorentz",
    "Verif.Sr.primitives_respect_floors",
    "Verif.Sr.loops_are_cellwise",
    "Verif.Sr.face_floors",
    "Verif.Sr.cold_fails",
    "Verif.Sr.cold_gas_is_lost",
    "Verif.Sr.rejected_is_failure",
    "Verif.Sr.floors_add_too_much_energy"
   ],
   "note": "Proved: exact inverse at the true pressure, error bound on success, floors and agreement for any input. Convergence from any stored pressure is not claimed and is false of the code for pressures up to 1e-12 (cold_fails, cold_gas_is_lost)."
  },
  {
   "property": "C78",
   "status": "proved",
   "theorems": [
    "Verif.Sr.sound_speeds",
    "Verif.Sr.sound_speeds_causal",
    "Verif.Sr.density_admissible",
    "Verif.Sr.mean_state_admissible",
    "Verif.Sr.first_order_step_admissible",
    "Verif.Sr.admissible_iff_gas",
    "Verif.Sr.first_order_step_gas",
    "Verif.Sr.supersonic_upwind",
    "Verif.Sr.hllc_fan",
    "Verif.Sr.hllc_contact",
    "Verif.Sr.relativistic_solvers_consistent",
    "Verif.Sr.relativistic_mirror"
   ],
   "note": "HLLC where the mean energy flux is zero or larger in size than TINY_NUMBER. Exact arithmetic."
  },
  {
   "property": "C79",
   "status": "proved",
   "theorems": [
    "Verif.Gr.metric_schwarzschild",
    "Verif.Gr.metric_kerr",
    "Verif.Gr.inverse_schwarzschild",
    "Verif.Gr.inverse_kerr",
    "Verif.Gr.schwarzschild_isMetric",
    "Verif.Gr.kerr_isMetric",
    "Verif.Gr.lower_raise_schwarzschild",
    "Verif.Gr.lower_raise_kerr",
    "Verif.Gr.lower_raise_user",
    "Verif.Gr.state_determined",
    "Verif.Gr.schwarzschild_slices",
    "Verif.Gr.kerr_slices",
    "Verif.Gr.sources_schwarzschild",
    "Verif.Gr.sources_kerr",
    "Verif.Gr.sources_user",
    "Verif.Gr.derivatives_exist"
   ],
   "note": "Off the axis; exact arithmetic. With a metric of the user its derivatives are inputs."
  },
  {
   "property": "C80",
   "status": "partial",
   "theorems": [
    "Verif.Gr.interface_kerr",
    "Verif.Gr.interface_schwarzschild_partial",
    "Verif.Gr.theta_mass_flux",
    "Verif.Gr.theta_mass_flux_wrong",
    "Verif.Gr.interface_user_partial",
    "Verif.Gr.interface_user_read",
    "Verif.Gr.user_momentum_flux_wrong",
    "Verif.Gr.light_speeds",
    "Verif.Gr.hlle_consistent"
   ],
   "note": "Complete for Kerr-Schild. False of the code for Schwarzschild in theta (theta_mass_flux_wrong) and for metrics of the user with a shift across surfaces of constant x2, x3 (user_momentum_flux_wrong)."
  },
  {
   "property": "C81",
   "status": "partial",
   "theorems": [
    "Verif.Cr.rotation",
    "Verif.Cr.field_angles",
    "Verif.Cr.field_angles_axis",
    "Verif.Cr.field_angles_ok",
    "Verif.Cr.source_hydro",
    "Verif.Cr.source_mhd",
    "Verif.Cr.momentum_conserved",
    "Verif.Cr.energy_conserved",
    "Verif.Cr.energy_nonneg",
    "Verif.Cr.energy_nonneg_mhd",
    "Verif.Cr.gas_passive",
    "Verif.Cr.fast_gas_divides_by_zero",
    "Verif.Cr.energy_not_conserved",
    "Verif.Cr.energy_not_conserved_gas",
    "Verif.Cr.flux_lost",
    "Verif.Cr.angles_set"
   ],
   "note": "Proved as stated where the energies stay positive; false of the code where the checks of negative energies act (energy_not_conserved) and with magnetic fields, vs_flag = 0 and the default opacity (flux_lost). Cartesian terms."
  },
  {
   "property": "C82",
   "status": "partial",
   "theorems": [
    "Verif.Cr.signal_speeds",
    "Verif.Cr.signal_speeds_cover",
    "Verif.Cr.flux_hll",
    "Verif.Cr.flux_consistent",
    "Verif.Cr.reduction",
    "Verif.Cr.reduction_branches",
    "Verif.Cr.diffusion_bounded",
    "Verif.Cr.streaming_down",
    "Verif.Cr.streaming_flux",
    "Verif.Cr.rotated_speed_zero",
    "Verif.Cr.diagonal_field",
    "Verif.Cr.central_flux",
    "Verif.Cr.opacity_reads_inside",
    "Verif.Cr.opacity_reads_outside",
    "Verif.Cr.opacity_reads_outside_2d"
   ],
   "note": "False of the code: diffusion speeds with a magnetic field can vanish (rotated_speed_zero); the default opacity reads outside the array in one and two dimensions."
  },
  {
   "property": "C83",
   "status": "partial",
   "theorems": [
    "Verif.Rad.families_invertible",
    "Verif.Rad.labels_in_range",
    "Verif.Rad.labels_out_of_range",
    "Verif.Rad.table_overflow",
    "Verif.Rad.level_unit",
    "Verif.Rad.level_isotropic",
    "Verif.Rad.level_isotropic_plane",
    "Verif.Rad.ten_isotropic_plane",
    "Verif.Rad.zeta_unit",
    "Verif.Rad.zeta_isotropic",
    "Verif.Rad.slab_pressure",
    "Verif.Rad.circle_pressure",
    "Verif.Rad.plane_zeta_pressure",
    "Verif.Rad.polar_not_isotropic",
    "Verif.Rad.odd_angles_overflow",
    "Verif.Lin.level_grid"
   ],
   "note": "Proved for two to six levels, for angle_flag = 10, and for nzeta, npsi with npsi at least two, an even product and no polar angles; false of the code otherwise (labels_out_of_range, table_overflow, polar_not_isotropic, slab_pressure, circle_pressure, plane_zeta_pressure, odd_angles_overflow)."
  },
  {
   "property": "C84",
   "status": "partial",
   "theorems": [
    "Verif.RadX.quartic_root",
    "Verif.RadX.exchange_transfer",
    "Verif.RadX.exchange_gas",
    "Verif.RadX.transfer_conserves",
    "Verif.RadX.exchange_positive",
    "Verif.RadX.no_overheating",
    "Verif.RadX.no_overcooling",
    "Verif.RadX.equilibrium"
   ],
   "note": "For one frequency group without Compton scattering, intensities above the floor of 1e-20; the energy equation to 1e-20 in two branches."
  },
  {
   "property": "C85",
   "status": "partial",
   "theorems": [
    "Verif.RadX.frames_round_trip",
    "Verif.RadX.com_angle",
    "Verif.RadX.comoving_weights",
    "Verif.RadX.comoving_physical",
    "Verif.RadX.moving_equilibrium",
    "Verif.RadX.total_conserved",
    "Verif.RadX.velocity_limit",
    "Verif.RadX.rest_consistent"
   ],
   "note": "total_conserved names the branches in which energy or momentum is not conserved (velocity limit, set_source_flag = 2, negative internal energy, temperature ceiling); velocity_limit is the loss of momentum."
  },
  {
   "property": "C86",
   "status": "proved",
   "theorems": [
    "Verif.Lin.solve_correct",
    "Verif.Lin.inverse_correct",
    "Verif.Lin.refused_iff",
    "Verif.Lin.singular_accepted",
    "Verif.Lin.family_weights",
    "Verif.Lin.level_grid"
   ],
   "note": "For every regular matrix; singular_accepted shows that singular matrices are not detected in general."
  },
  {
   "property": "C87",
   "status": "partial",
   "theorems": [
    "Verif.Chem.euler_polygon",
    "Verif.Chem.invariants_kept",
    "Verif.Chem.substep_positive",
    "Verif.Chem.integrate_cell",
    "Verif.Chem.h2_network",
    "Verif.Chem.h2_hydrogen",
    "Verif.Chem.trace_negative"
   ],
   "note": "Abundances below yfloor are not protected: trace_negative is a counterexample in the H2 network with default parameters."
  },
  {
   "property": "C88",
   "status": "partial",
   "theorems": [
    "Verif.ChemNet.gow_listed",
    "Verif.ChemNet.gow_balanced",
    "Verif.ChemNet.gow_elements",
    "Verif.ChemNet.gow_positive",
    "Verif.ChemNet.gow_hydrogen_bound",
    "Verif.ChemNet.gow_hydrogen_negative",
    "Verif.ChemNet.he_recombination_pos",
    "Verif.ChemNet.g14_balanced",
    "Verif.ChemNet.g14_neutral",
    "Verif.ChemNet.g14_listed_partial",
    "Verif.ChemNet.g14_helium",
    "Verif.ChemNet.g14_hydrogen",
    "Verif.ChemNet.g14_hydrogen_made",
    "Verif.ChemNet.g14_positive"
   ],
   "note": "gow17 in full, with the exact exception for atomic hydrogen; four reactions of G14Sod differ from the list, so hydrogen is not conserved there (g14_hydrogen_made). Rate coefficients are parameters."
  },
  {
   "property": "C89",
   "status": "proved",
   "theorems": [
    "Verif.Emf.edge_mean",
    "Verif.Emf.edges_agree",
    "Verif.Emf.edge_kept",
    "Verif.Emf.faces_agree"
   ],
   "note": "Three dimensions, one level, no poles and no shearing boundary."
  },
  {
   "property": "C90",
   "status": "proved",
   "theorems": [
    "Verif.FaceEx.ghost_faces",
    "Verif.FaceEx.outer_faces",
    "Verif.FaceEx.active_faces",
    "Verif.FaceEx.message_size"
   ],
   "note": "Three dimensions, one level (also declared multilevel), no poles and no shearing boundary."
  },
  {
   "property": "C91",
   "status": "partial",
   "theorems": [
    "Verif.Hst.history_columns_partial",
    "Verif.Hst.history_distribution",
    "Verif.Hst.groups_fatal",
    "Verif.Hst.groups_mislabelled",
    "Verif.Hst.bands_overlap"
   ],
   "note": "Holds for every configuration without frequency groups and without chemistry radiation next to radiation or cosmic rays; false in those two cases (F91, F92, proved with witnesses)."
  },
  {
   "property": "C92",
   "status": "partial",
   "theorems": [
    "Verif.Quartic.root_found_partial",
    "Verif.Quartic.root_exists_partial",
    "Verif.Quartic.negative_fails",
    "Verif.Quartic.effective_never_solved"
   ],
   "note": "Exact for positive coefficients outside of the approximate branch for very large numbers; false for negative coefficients (F94, proved)."
  },
  {
   "property": "C93",
   "status": "partial",
   "theorems": [
    "Verif.Interp.table_bilinear",
    "Verif.Interp.table_node",
    "Verif.Interp.table_exact",
    "Verif.Interp.table_bounds",
    "Verif.Interp.lp1d_linear_partial",
    "Verif.Interp.lp2d_bilinear_partial",
    "Verif.Interp.lp1d_first_node"
   ],
   "note": "Proved for the table of the equation of state; for the tables of the chemistry away from the first node, where it is false (F93, proved)."
  },
  {
   "property": "C94",
   "status": "partial",
   "theorems": [
    "Verif.RadSrc.absorb_solves_partial",
    "Verif.RadSrc.energy_conserved",
    "Verif.RadSrc.equilibrium_kept",
    "Verif.RadSrc.momentum_conserved",
    "Verif.RadSrc.source_energy",
    "Verif.RadSrc.velocity_limited",
    "Verif.RadSrc.internal_nonneg",
    "Verif.RadSrc.temperature_consistent"
   ],
   "note": "One frequency group for the exchange, any number for the source terms; coefficients below TINY_NUMBER and the approximate branch of the solver excluded; no Compton scattering."
  },
  {
   "property": "C95",
   "status": "partial",
   "theorems": [
    "Verif.RadSrc.multi_solves_partial",
    "Verif.RadSrc.multi_energy",
    "Verif.RadSrc.compton_solves_partial",
    "Verif.RadSrc.compton_energy",
    "Verif.RadSrc.compton_negative"
   ],
   "note": "Coefficients below TINY_NUMBER and the approximate branch of the solver excluded; Compton scattering for one group; finding F95."
  },
  {
   "property": "C96",
   "status": "partial",
   "theorems": [
    "Verif.Hydrogen.saha_equation",
    "Verif.Hydrogen.pres_mono",
    "Verif.Hydrogen.eng_mono",
    "Verif.Hydrogen.energy_temperature",
    "Verif.Hydrogen.pressure_temperature",
    "Verif.Hydrogen.sound_speed",
    "Verif.Hydrogen.pressure_bracketed",
    "Verif.Hydrogen.energy_bracketed_partial",
    "Verif.Hydrogen.invert_spec_partial",
    "Verif.Hydrogen.pressure_inverted_partial",
    "Verif.Hydrogen.energy_inverted_partial",
    "Verif.Hydrogen.energy_unbracketed",
    "Verif.Hydrogen.first_pass_undefined"
   ],
   "note": "End of the iteration and positivity of its trial temperatures not proved; findings F96, F97."
  },
  {
   "property": "C97",
   "status": "partial",
   "theorems": [
    "Verif.GenEos.gen_cons_to_prim",
    "Verif.GenEos.gen_prim_to_cons",
    "Verif.GenEos.gen_round_trip",
    "Verif.GenEos.gen_cons_round_trip",
    "Verif.GenEos.gen_floors_partial",
    "Verif.GenEos.floors_inconsistent",
    "Verif.GenEos.ideal_inverse",
    "Verif.GenEos.hydrogen_below_floor"
   ],
   "note": "Correction of both sets of variables only where both floors or none act; findings F98, F99."
  },
  {
   "property": "C98",
   "status": "partial",
   "theorems": [
    "Verif.FreqMap.forward_energy",
    "Verif.FreqMap.backward_energy",
    "Verif.FreqMap.forward_share",
    "Verif.FreqMap.backward_share",
    "Verif.FreqMap.forward_tail",
    "Verif.FreqMap.forward_nonneg",
    "Verif.FreqMap.backward_nonneg",
    "Verif.FreqMap.inverse_solves_partial",
    "Verif.FreqMap.round_trip_partial",
    "Verif.FreqMap.lab_energy_partial",
    "Verif.FreqMap.lab_nonneg_partial",
    "Verif.FreqMap.reads_past_end",
    "Verif.FreqMap.diagonal_before_row",
    "Verif.FreqMap.last_row_too_wide",
    "Verif.FreqMap.stale_diagonal"
   ],
   "note": "For shifts to lower frequencies the inverse needs unwritten slots without ratios; findings F100 to F103."
  },
  {
   "property": "C99",
   "status": "partial",
   "theorems": [
    "Verif.RadTransport.transport_partial",
    "Verif.RadTransport.block_energy_partial",
    "Verif.RadTransport.flux_consistent",
    "Verif.RadTransport.speeds_enclose",
    "Verif.RadTransport.tau_factor_range",
    "Verif.RadTransport.vacuum_upwind",
    "Verif.RadTransport.thick_flux",
    "Verif.RadTransport.zeta_conserves_partial",
    "Verif.RadTransport.psi_conserves_partial",
    "Verif.RadTransport.psi_sign_needed",
    "Verif.RadTransport.along_face_carried"
   ],
   "note": "For a converged iteration in exact arithmetic; convergence itself is not shown; finding F104."
  },
  {
   "property": "C100",
   "status": "partial",
   "theorems": [
    "Verif.FreqGrid.unit_pos",
    "Verif.FreqGrid.grid_proper",
    "Verif.FreqGrid.grid_count",
    "Verif.FreqGrid.zero_frequency",
    "Verif.FreqGrid.negative_bins",
    "Verif.FreqGrid.emission_total",
    "Verif.FreqGrid.fit_range",
    "Verif.FreqGrid.fit_mono_partial",
    "Verif.FreqGrid.emission_nonneg_partial",
    "Verif.FreqGrid.wien_exact",
    "Verif.FreqGrid.wien_round_trip",
    "Verif.FreqGrid.number_not_inverse"
   ],
   "note": "Exact arithmetic; bins that begin just below the first seam of the fit are left out; findings F105 to F107."
  },
  {
   "property": "C101",
   "status": "proved",
   "theorems": [
    "Verif.RadMoments.moments_meaning",
    "Verif.RadMoments.trace_energy",
    "Verif.RadMoments.flux_limited",
    "Verif.RadMoments.limited_speed",
    "Verif.RadMoments.com_energy",
    "Verif.RadMoments.com_flux"
   ],
   "note": "Exact arithmetic; the frequency map enters through the conservation proved in C98."
  },
  {
   "property": "C102",
   "status": "partial",
   "theorems": [
    "Verif.RadAngular.zeta_conserves",
    "Verif.RadAngular.zeta_positive",
    "Verif.RadAngular.psi_conserves_partial",
    "Verif.RadAngular.isotropic_residual",
    "Verif.RadAngular.normalization_gt_one",
    "Verif.RadAngular.flat_space_rotates",
    "Verif.RadAngular.shared_slot"
   ],
   "note": "Holds in spherical polar coordinates up to the stated residue; false with the default geometric factors (F108, F110); isotropic radiation not exactly at rest (F109)."
  },
  {
   "property": "C103",
   "status": "partial",
   "theorems": [
    "Verif.RadReflect.reflect_inner_partial",
    "Verif.RadReflect.reflect_outer_partial",
    "Verif.RadReflect.reflect_inner_rows_partial",
    "Verif.RadReflect.reflect_outer_rows_partial",
    "Verif.RadReflect.mirror_cosine",
    "Verif.RadReflect.flip_cosine",
    "Verif.RadReflect.mirror_flip",
    "Verif.RadReflect.two_dimensions",
    "Verif.RadReflect.two_dimensions_general",
    "Verif.RadReflect.two_dimensions_outer",
    "Verif.RadReflect.one_dimension"
   ],
   "note": "Holds in three dimensions; false of the code in two (F111, F113: neighbouring cells overwritten) and in one (F112: wrong angle)."
  },
  {
   "property": "C104",
   "status": "partial",
   "theorems": [
    "Verif.RadRotate.half_turn",
    "Verif.RadRotate.quarter_octants",
    "Verif.RadRotate.quarter_turn_iff",
    "Verif.RadRotate.both_ends",
    "Verif.RadRotate.theta_mirror"
   ],
   "note": "The half turn holds; the quarter turn is right for octants only (F114), has one sense at both ends (F115), and is a mirror at the x2 faces (F116)."
  },
  {
   "property": "C105",
   "status": "proved",
   "theorems": [
    "Verif.RadVacuum.vacuum_inner",
    "Verif.RadVacuum.vacuum_outer",
    "Verif.RadVacuum.nothing_enters",
    "Verif.RadVacuum.nothing_enters_outer",
    "Verif.RadVacuum.outflow_feeds"
   ],
   "note": "One line of cells across the face; first-order flux. No wrong-program attempts were run for this claim."
  }
 ]
}