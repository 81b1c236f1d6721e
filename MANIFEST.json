{
 "claims": [
  {
   "property": "C01",
   "status": "proved",
   "theorems": [
    "Fierro.C01_getId_bijOn"
   ],
   "note": "get_id over Z, all extents."
  },
  {
   "property": "C02",
   "status": "proved",
   "theorems": [
    "Fierro.C02_pointIndex_bijOn"
   ],
   "note": "All (also anisotropic) orders."
  },
  {
   "property": "C03",
   "status": "proved",
   "theorems": [
    "Fierro.C03_box3D_corner",
    "Fierro.C03_box3D_filled",
    "Fierro.C03_box3D_conforming",
    "Fierro.C03_box3D_every_node_used",
    "Fierro.C03_hexN_order",
    "Fierro.C03_hexN_conforming"
   ],
   "note": "build_3d_box and build_3d_HexN_box, loops modelled as sequences of array writes."
  },
  {
   "property": "C04",
   "status": "proved",
   "theorems": [
    "Fierro.C04_box3D_extent",
    "Fierro.C04_box3D_volume"
   ],
   "note": "Exact arithmetic; every cell above the 1e-14 floor."
  },
  {
   "property": "C05",
   "status": "proved",
   "theorems": [
    "Fierro.C05_box2D_corners",
    "Fierro.C05_box2D_conforming",
    "Fierro.C05_box2D_area"
   ],
   "note": ""
  },
  {
   "property": "C06",
   "status": "proved",
   "theorems": [
    "Fierro.C06_bmatrix_sum_zero"
   ],
   "note": "Any eight points."
  },
  {
   "property": "C07",
   "status": "proved",
   "theorems": [
    "Fierro.C07_bmatrix_linear",
    "Fierro.C07_velgrad_affine",
    "Fierro.C07_divergence_trace",
    "Fierro.C07_velgrad_affine_stored"
   ],
   "note": "Stored volume equal to the formula volume is a hypothesis of the _stored form."
  },
  {
   "property": "C08",
   "status": "proved",
   "theorems": [
    "Fierro.C08_vol_translate",
    "Fierro.C08_vol_scale",
    "Fierro.C08_vol_parallelepiped",
    "Fierro.C08_vol_linear_map",
    "Fierro.C08_vol_gradient",
    "Fierro.C08_vol_is_integral"
   ],
   "note": "Includes equality with the triple integral of the Jacobian of the trilinear map."
  },
  {
   "property": "C09",
   "status": "proved",
   "theorems": [
    "Fierro.C09_bmatrix2D_sum_zero",
    "Fierro.C09_bmatrix2D_linear",
    "Fierro.C09_heron_eq",
    "Fierro.C09_corner_areas_iff",
    "Fierro.C09_corner_areas_convex",
    "Fierro.C09_corner_areas_clockwise_fails",
    "Fierro.C09_corner_areas_reflex_fails",
    "Fierro.C09_area_is_integral",
    "Fierro.C09_rz_volume_is_integral",
    "Fierro.C09_rz_volume_floor"
   ],
   "note": "Exact iff for the corner areas; the clockwise and re-entrant failures are proved with concrete elements."
  },
  {
   "property": "C10",
   "status": "proved",
   "theorems": [
    "Fierro.C10_stage_balance_exact",
    "Fierro.C10_mars_stage",
    "Fierro.C10_stress_force_sums_zero",
    "Fierro.C10_stage_balance",
    "Fierro.C10_run_conserves"
   ],
   "note": "Per stage and for whole runs; dissipative corner forces need zero sum (C29 proves that for MARS)."
  },
  {
   "property": "C11",
   "status": "proved",
   "theorems": [
    "Fierro.C11_stage_balance",
    "Fierro.C11_run_conserves",
    "Fierro.C11_printed_energy",
    "Fierro.C11_partial_erosion_fails",
    "Fierro.C11_partial_erosion_order"
   ],
   "note": "Exact balance per stage incl. external and wall work; whole run with walls. Elements holding an eroded and a live material lose energy: C11_partial_erosion_fails."
  },
  {
   "property": "C12",
   "status": "proved",
   "theorems": [
    "Fierro.C12_node_mass_total",
    "Fierro.C12_node_mass_nonneg",
    "Fierro.C12_node_mass_pos"
   ],
   "note": ""
  },
  {
   "property": "C13",
   "status": "proved",
   "theorems": [
    "Fierro.C13_growth",
    "Fierro.C13_max",
    "Fierro.C13_cfl",
    "Fierro.C13_final",
    "Fierro.C13_graphics",
    "Fierro.C13_not_too_small",
    "Fierro.C13_positive",
    "Fierro.C13_negative_step_when_late"
   ],
   "note": "Positive under ClockOpts.Sane; a window already passed gives a negative step (C13_negative_step_when_late)."
  },
  {
   "property": "C14",
   "status": "proved",
   "theorems": [
    "Fierro.C14_pairs",
    "Fierro.C14_length_le",
    "Fierro.C14_length_attained"
   ],
   "note": ""
  },
  {
   "property": "C15",
   "status": "proved",
   "theorems": [
    "Fierro.C15_terminates",
    "Fierro.C15_defined_iff",
    "Fierro.C15_time_increases",
    "Fierro.C15_stops_at_final",
    "Fierro.C15_reaches_final",
    "Fierro.C15_dump_once",
    "Fierro.C15_final_state_dumped",
    "Fierro.C15_cycle_stop_test_dead"
   ],
   "note": "Physics abstracted to an arbitrary bounded-below step chooser."
  },
  {
   "property": "C16",
   "status": "proved",
   "theorems": [
    "Fierro.C16_chain",
    "Fierro.C16_increasing",
    "Fierro.C16_window_can_be_reversed"
   ],
   "note": "Solver 0 is not clipped to the global final time, so a window may be reversed (C16_window_can_be_reversed)."
  },
  {
   "property": "C17",
   "status": "proved",
   "theorems": [
    "Fierro.C17_any_schedule",
    "Fierro.C17_schedules_agree",
    "Fierro.C17_last_full_fill_then_partials",
    "Fierro.C17_different_materials",
    "Fierro.C17_full_fill_overwrites",
    "Fierro.C17_unselected",
    "Fierro.C17_partial_fill_replaces_full_fails"
   ],
   "note": "C17_partial_fill_replaces_full_fails: defect of the code."
  },
  {
   "property": "C18",
   "status": "proved",
   "theorems": [
    "Fierro.C18_at_most_max",
    "Fierro.C18_in_bounds",
    "Fierro.C18_abort_iff",
    "Fierro.C18_no_duplicate",
    "Fierro.C18_duplicate_material_fails",
    "Fierro.C18_spurious_abort",
    "Fierro.C18_volume_fractions_may_exceed_one"
   ],
   "note": "C18_duplicate_material_fails: defect of the code."
  },
  {
   "property": "C19",
   "status": "proved",
   "theorems": [
    "Fierro.C19_roundtrip",
    "Fierro.C19_every_index_used_once",
    "Fierro.C19_in_range",
    "Fierro.C19_mass",
    "Fierro.C19_two_gauss_points_fails"
   ],
   "note": "Single Gauss point per element; the failure for two is proved."
  },
  {
   "property": "C20",
   "status": "proved",
   "theorems": [
    "Fierro.C20_connectivity_faithful",
    "Fierro.C20_order_preserving",
    "Fierro.C20_only_used_nodes",
    "Fierro.C20_in_bounds"
   ],
   "note": "Node compaction for material files, all meshes."
  },
  {
   "property": "C21",
   "status": "proved",
   "theorems": [
    "Fierro.C21_ensight_connectivity_3d",
    "Fierro.C21_ensight_format_3d",
    "Fierro.C21_ensight_coords",
    "Fierro.C21_ensight_2d_fails"
   ],
   "note": "Connectivity in 3D and coordinates up to print rounding; 2D failure proved."
  },
  {
   "property": "C22",
   "status": "proved",
   "theorems": [
    "Fierro.C22_vtu_roundtrip",
    "Fierro.C22_vtk_order_fails",
    "Fierro.C22_written_file_rejected_fails",
    "Fierro.C22_named_points_file",
    "Fierro.C22_field_read_back"
   ],
   "note": "All orders. High-order files do not follow the VTK node order (proved)."
  },
  {
   "property": "C23",
   "status": "proved",
   "theorems": [
    "Fierro.C23_index_correct_iff",
    "Fierro.C23_missing_material_fails"
   ],
   "note": "Exact condition under which the index is right, and the failure otherwise."
  },
  {
   "property": "C24",
   "status": "proved",
   "theorems": [
    "Fierro.C24_patches",
    "Fierro.C24_patches_once",
    "Fierro.C24_nodes",
    "Fierro.C24_nodes_in_bounds",
    "Fierro.C24_nodes_of_surface",
    "Fierro.C24_global_surface_fails",
    "Fierro.C24_2d_sphere_unset_fails"
   ],
   "note": "Coordinate planes, cylinders, spheres; the surface tag global selects nothing (proved), spheres and z-planes in 2D read an unset value (proved)."
  },
  {
   "property": "C25",
   "status": "proved",
   "theorems": [
    "Fierro.C25_untouched",
    "Fierro.C25_schedule_independent",
    "Fierro.C25_last_set_decides",
    "Fierro.C25_zero",
    "Fierro.C25_constant",
    "Fierro.C25_reflected_axis",
    "Fierro.C25_reflected_planes",
    "Fierro.C25_reflected_iff",
    "Fierro.C25_reflected_negative_axis_fails",
    "Fierro.C25_piston_axis",
    "Fierro.C25_time_varying_axis",
    "Fierro.C25_piston_negative_axis_fails"
   ],
   "note": "The reflected condition is correct iff the normal is a positive unit axis (C25_reflected_iff)."
  },
  {
   "property": "C26",
   "status": "proved",
   "theorems": [
    "Fierro.C26_pressure",
    "Fierro.C26_sound_speed_floor",
    "Fierro.C26_sound_speed_mono",
    "Fierro.C26_sound_speed_thermodynamic",
    "Fierro.C26_elastic_pressure",
    "Fierro.C26_elastic_speed"
   ],
   "note": ""
  },
  {
   "property": "C27",
   "status": "proved",
   "theorems": [
    "Fierro.C27_permanent_step",
    "Fierro.C27_erodes_iff",
    "Fierro.C27_void",
    "Fierro.C27_no_force",
    "Fierro.C27_permanent_run"
   ],
   "note": ""
  },
  {
   "property": "C28",
   "status": "proved",
   "theorems": [
    "Fierro.C28_range",
    "Fierro.C28_clamp_inactive",
    "Fierro.C28_change",
    "Fierro.C28_sum_kept",
    "Fierro.C28_energy_exchange",
    "Fierro.C28_mass_kept",
    "Fierro.C28_near_single_material_fails"
   ],
   "note": "Sum kept up to an explicit bound proportional to fuzz, also with an active limiter, when every material present is below 1-fuzz; the failure otherwise is proved."
  },
  {
   "property": "C29",
   "status": "proved",
   "theorems": [
    "Fierro.C29_phi_bounds",
    "Fierro.C29_momentum_neutral",
    "Fierro.C29_momentum_leak_bound",
    "Fierro.C29_dissipative",
    "Fierro.C29_mars",
    "Fierro.C29_galilean",
    "Fierro.C29_translation_free",
    "Fierro.C29_expansion_off",
    "Fierro.C29_coefficients_used",
    "Fierro.C29_corner_neighbours",
    "Fierro.C29_dual_faces",
    "Fierro.C29_law",
    "Fierro.C29_directional_law"
   ],
   "note": "Momentum neutral above the impedance fuzz; below it a leak bounded by fuzz*vmax is proved."
  },
  {
   "property": "C30",
   "status": "proved",
   "theorems": [
    "Fierro.C30_decompose",
    "Fierro.C30_rigid_iff"
   ],
   "note": ""
  },
  {
   "property": "C31",
   "status": "proved",
   "theorems": [
    "Fierro.C31_in_range",
    "Fierro.C31_bounded",
    "Fierro.C31_linear_between",
    "Fierro.C31_stored_points",
    "Fierro.C31_clamped",
    "Fierro.C31_monotone",
    "Fierro.C31_verify"
   ],
   "note": "Exact arithmetic."
  },
  {
   "property": "C32",
   "status": "proved",
   "theorems": [
    "Fierro.C32_split",
    "Fierro.C32_split_join",
    "Fierro.C32_empty_delimiter_fails",
    "Fierro.C32_array_values",
    "Fierro.C32_extract_list",
    "Fierro.C32_trim",
    "Fierro.C32_tab_not_trimmed_fails"
   ],
   "note": "Trimming removes blanks only (tabs and carriage returns stay, proved); an empty delimiter never returns (proved)."
  },
  {
   "property": "C33",
   "status": "proved",
   "theorems": [
    "Fierro.C33_ids_permutation",
    "Fierro.C33_accepts_iff",
    "Fierro.C33_materials",
    "Fierro.C33_order_irrelevant"
   ],
   "note": "All decks; block contents are kept as parameters."
  },
  {
   "property": "C34",
   "status": "proved",
   "theorems": [
    "Fierro.C34_validate_iff",
    "Fierro.C34_solver",
    "Fierro.C34_dynamic",
    "Fierro.C34_validate_unknown_passes_fails",
    "Fierro.C34_elem_outputs",
    "Fierro.C34_complaint_iff",
    "Fierro.C34_solver_words"
   ],
   "note": "The validation function alone lets unknown keys pass (proved); the parsers reject them."
  },
  {
   "property": "C35",
   "status": "proved",
   "theorems": [
    "Fierro.C35_check_iff",
    "Fierro.C35_parsed_check_iff",
    "Fierro.C35_sgh",
    "Fierro.C35_repetition_fails",
    "Fierro.C35_per_region_fails"
   ],
   "note": "Exact for the list of fields parsed from all regions together; that a single region may be incomplete is proved."
  },
  {
   "property": "C36",
   "status": "proved",
   "theorems": [
    "Fierro.C36_sphere",
    "Fierro.C36_cylinder",
    "Fierro.C36_box",
    "Fierro.C36_global",
    "Fierro.C36_grid_box_selects_its_cells"
   ],
   "note": "Ideal square roots."
  },
  {
   "property": "C37",
   "status": "proved",
   "theorems": [
    "Fierro.C37_in_bounds",
    "Fierro.C37_voxel_exact",
    "Fierro.C37_voxel_centres",
    "Fierro.C37_last_layer_lost_fails",
    "Fierro.C37_wrong_voxel_fails",
    "Fierro.C37_single_voxel_spacing_zero",
    "Fierro.C37_last_value_unread_fails",
    "Fierro.C37_single_line_read"
   ],
   "note": "C37_last_layer_lost_fails, C37_wrong_voxel_fails, C37_last_value_unread_fails: defects of the code."
  },
  {
   "property": "C38",
   "status": "proved",
   "theorems": [
    "Fierro.C38_push_back_list",
    "Fierro.C38_erase",
    "Fierro.C38_erase_gap_fails",
    "Fierro.C38_push_front_fails",
    "Fierro.C38_insert_at_end_fails",
    "Fierro.C38_insert_inside_fails",
    "Fierro.C38_insert_front_fails",
    "Fierro.C38_lookup_value",
    "Fierro.C38_lookup_existing_unchanged",
    "Fierro.C38_lookup_keeps_data",
    "Fierro.C38_lookup_adds_entry_fails",
    "Fierro.C38_lookup_wrong_kind_fails",
    "Fierro.C38_assign_stores",
    "Fierro.C38_assign_missing_index_fails",
    "Fierro.C38_modify_elsewhere",
    "Fierro.C38_keys_sorted",
    "Fierro.C38_push_back_texts"
   ],
   "note": "List and map behaviour proved for push-back, lookup, assignment; erase leaves gaps, push-front and insert are wrong (each proved with a witness)."
  },
  {
   "property": "C39",
   "status": "proved",
   "theorems": [
    "Fierro.C39_map_document",
    "Fierro.C39_sequence_document",
    "Fierro.C39_map_entries",
    "Fierro.C39_start_marker",
    "Fierro.C39_before_marker",
    "Fierro.C39_end_marker",
    "Fierro.C39_dedent_rejected",
    "Fierro.C39_dedent_rejected_sequence",
    "Fierro.C39_mixed_rejected",
    "Fierro.C39_unindented_sequence_fails",
    "Fierro.C39_wrong_indent_swallowed_fails",
    "Fierro.C39_empty_value_fails",
    "Fierro.C39_empty_value_nested_fails",
    "Fierro.C39_tilde_fails",
    "Fierro.C39_empty_quotes_fails",
    "Fierro.C39_quoted_comment_sign_fails",
    "Fierro.C39_crlf_marker_fails",
    "Fierro.C39_block_quote_fails",
    "Fierro.C39_block_comment_sign_fails",
    "Fierro.C39_block_lines_fails",
    "Fierro.C39_apostrophe_fails",
    "Fierro.C39_continuation_offset",
    "Fierro.C39_stray_line_fails"
   ],
   "note": "Unbounded nesting, by induction over the document; keys and texts plain, in quotes or as blocks; plain texts over several lines are outside the document class. Failures for other documents proved with witnesses."
  },
  {
   "property": "C40",
   "status": "proved",
   "theorems": [
    "Fierro.C40_dumps_at_requested_times",
    "Fierro.C40_late_start_stalls",
    "Fierro.C40_late_start_fails"
   ],
   "note": "Proved for start time zero; the failure for later starts is proved."
  },
  {
   "property": "C41",
   "status": "proved",
   "theorems": [
    "Fierro.C41_symmetric",
    "Fierro.C41_deviatoric",
    "Fierro.C41_yield",
    "Fierro.C41_rotation_free",
    "Fierro.C41_elastic",
    "Fierro.C41_rz_symmetric_yield",
    "Fierro.C41_rz_elastic",
    "Fierro.C41_rz_shear_half_fails",
    "Fierro.C41_rz_not_deviatoric_fails"
   ],
   "note": "3D model; the RZ variant failures are proved."
  },
  {
   "property": "C42",
   "status": "proved",
   "theorems": [
    "Fierro.C42_density_times_volume",
    "Fierro.C42_coupled_ignores_volfrac_fails",
    "Fierro.C42_strength_result"
   ],
   "note": "Proved for the decoupled branch; failure proved for the coupled one."
  },
  {
   "property": "C43",
   "status": "proved",
   "theorems": [
    "Fierro.C43_element_neutral",
    "Fierro.C43_stage_balance",
    "Fierro.C43_run_conserves",
    "Fierro.C43_single_material_runs",
    "Fierro.C43_single_material_run",
    "Fierro.C43_two_materials_fails"
   ],
   "note": "Balance for meshes without mixed elements; conservation of the insulated body for any assignment of materials. Multi-material runs leave their arrays (proved)."
  },
  {
   "property": "C44",
   "status": "proved",
   "theorems": [
    "Fierro.C44_affine_exact",
    "Fierro.C44_uniform_steady"
   ],
   "note": "Elements with volume above the 1e-14 floor."
  },
  {
   "property": "C45",
   "status": "proved",
   "theorems": [
    "Fierro.C45_no_gradient_no_change",
    "Fierro.C45_down_gradient",
    "Fierro.C45_checkerboard_fails"
   ],
   "note": "Mixed elements excluded. The checkerboard mode of the one-point element is proved to be invisible to conduction."
  },
  {
   "property": "C46",
   "status": "proved",
   "theorems": [
    "Fierro.C46_triangle_area",
    "Fierro.C46_parallelogram",
    "Fierro.C46_boundary_heat",
    "Fierro.C46_hot_body_loses",
    "Fierro.C46_prescribed_holds",
    "Fierro.C46_radiation_ambient_fails"
   ],
   "note": "Coefficients are the literals of the source."
  },
  {
   "property": "C47",
   "status": "proved",
   "theorems": [
    "Fierro.C47_diffusion_limit",
    "Fierro.C47_limits",
    "Fierro.C47_positive"
   ],
   "note": "Exact arithmetic, no NaN."
  },
  {
   "property": "C48",
   "status": "proved",
   "theorems": [
    "Fierro.C48_straight_line",
    "Fierro.C48_ends",
    "Fierro.C48_builtin_path_jumps_fails"
   ],
   "note": "On top of C31."
  },
  {
   "property": "C49",
   "status": "proved",
   "theorems": [
    "Fierro.C49_cycle",
    "Fierro.C49_run_trapezoid",
    "Fierro.C49_wall_nodes_stay",
    "Fierro.C49_free_flight"
   ],
   "note": "Contact and fracture not active."
  },
  {
   "property": "C50",
   "status": "proved",
   "theorems": [
    "Fierro.C50_stress_power",
    "Fierro.C50_pressure_work",
    "Fierro.C50_compression_heats"
   ],
   "note": "Dissipation power is a separate term (sign proved in C29)."
  },
  {
   "property": "C51",
   "status": "proved",
   "theorems": [
    "Fierro.C51_area_vectors_close",
    "Fierro.C51_corner_force_mixture",
    "Fierro.C51_uniform_stress_balanced"
   ],
   "note": "Interior node of a structured block, given by its 27 nodes; dissipation and erosion excluded."
  },
  {
   "property": "C52",
   "status": "proved",
   "theorems": [
    "Fierro.C52_corner_volume",
    "Fierro.C52_node_mass_total",
    "Fierro.C52_areal_mass_total",
    "Fierro.C52_areal_rebuild",
    "Fierro.C52_axis_mass",
    "Fierro.C52_mixed_element_fails"
   ],
   "note": "C52_mixed_element_fails shows that shared elements are counted once per material."
  },
  {
   "property": "C53",
   "status": "proved",
   "theorems": [
    "Fierro.C53_point",
    "Fierro.C53_stage_balance",
    "Fierro.C53_run_conserves"
   ],
   "note": "Assumes along the run: convex elements above the volume floor, nodes on or off the axis (not between 0 and tiny), no partially eroded element. With MARS dissipation see C57_weighted_fails."
  },
  {
   "property": "C54",
   "status": "proved",
   "theorems": [
    "Fierro.C54_stage_balance",
    "Fierro.C54_run_conserves",
    "Fierro.C54_material_mass"
   ],
   "note": "Assumes along the run: nodes on or off the axis, no partially eroded element."
  },
  {
   "property": "C55",
   "status": "proved",
   "theorems": [
    "Fierro.C55_radius_nonneg",
    "Fierro.C55_axis_stays",
    "Fierro.C55_cycle_position",
    "Fierro.C55_pairs",
    "Fierro.C55_dist_min"
   ],
   "note": "Clock logic of the r-z time step is the one of C13/C15."
  },
  {
   "property": "C56",
   "status": "proved",
   "theorems": [
    "Fierro.C56_velgrad_affine",
    "Fierro.C56_divergence_trace",
    "Fierro.C56_hoop",
    "Fierro.C56_hoop_parallelogram",
    "Fierro.C56_hoop_trapezoid_fails",
    "Fierro.C56_translation",
    "Fierro.C56_pressure_force",
    "Fierro.C56_resultant",
    "Fierro.C56_equilibrium",
    "Fierro.C56_axis_equilibrium",
    "Fierro.C56_uniform_pressure"
   ],
   "note": "C56_hoop_trapezoid_fails: the hoop rate is inexact on trapezoids."
  },
  {
   "property": "C57",
   "status": "proved",
   "theorems": [
    "Fierro.C57_law",
    "Fierro.C57_phi_bounds",
    "Fierro.C57_planar_neutral",
    "Fierro.C57_planar_dissipative",
    "Fierro.C57_uniform_velocity",
    "Fierro.C57_axial_leak",
    "Fierro.C57_weighted_fails",
    "Fierro.C57_mirror_fails",
    "Fierro.C57_expansion_off",
    "Fierro.C57_coefficients_used"
   ],
   "note": "C57_weighted_fails and C57_mirror_fails are defects of the model in the source."
  },
  {
   "property": "C58",
   "status": "proved",
   "theorems": [
    "Fierro.C58_conflict_free",
    "Fierro.C58_schedule_exists",
    "Fierro.C58_run_exists",
    "Fierro.C58_corner_forces",
    "Fierro.C58_velocity",
    "Fierro.C58_boundary_velocity",
    "Fierro.C58_boundary_heat",
    "Fierro.C58_time_step",
    "Fierro.C58_tally",
    "Fierro.C58_unprotected_addition_fails"
   ],
   "note": "Sequentially consistent interleavings of statement-level actions; exact arithmetic (floating-point sums do depend on the order)."
  },
  {
   "property": "C59",
   "status": "proved",
   "theorems": [
    "Fierro.C59_velocity_component",
    "Fierro.C59_velocity_unique",
    "Fierro.C59_temperature",
    "Fierro.C59_every_element_can_win",
    "Fierro.C59_radial",
    "Fierro.C59_spherical",
    "Fierro.C59_vortex",
    "Fierro.C59_interface_race_fails",
    "Fierro.C59_linear_velocity_fails",
    "Fierro.C59_spherical_2d_fails"
   ],
   "note": "3D meshes; C59_interface_race_fails shows the dependence on the schedule."
  },
  {
   "property": "C60",
   "status": "proved",
   "theorems": [
    "Fierro.C60_painted",
    "Fierro.C60_energy",
    "Fierro.C60_energy_per_element",
    "Fierro.C60_level_set_sphere",
    "Fierro.C60_level_set_plane",
    "Fierro.C60_level_set_union",
    "Fierro.C60_level_set_radial_fails",
    "Fierro.C60_vortex_scalar_fails"
   ],
   "note": "Ideal square roots."
  },
  {
   "property": "C61",
   "status": "proved",
   "theorems": [
    "Fierro.C61_corner_normal",
    "Fierro.C61_traction",
    "Fierro.C61_total_force",
    "Fierro.C61_moment",
    "Fierro.C61_superposition",
    "Fierro.C61_off_boundary",
    "Fierro.C61_closed_surface",
    "Fierro.C61_patch_test",
    "Fierro.C61_patch_test_distorted_fails",
    "Fierro.C61_stage_impulse",
    "Fierro.C61_time_varying",
    "Fierro.C61_time_varying_decays",
    "Fierro.C61_schedules"
   ],
   "note": "C61_patch_test_distorted_fails: on distorted meshes corner areas of boundary and interior differ."
  },
  {
   "property": "C62",
   "status": "proved",
   "theorems": [
    "Fierro.C62_uniform_field",
    "Fierro.C62_linear_field",
    "Fierro.C62_gradient_sign_fails",
    "Fierro.C62_direction",
    "Fierro.C62_hamiltonian",
    "Fierro.C62_uniform_field_2d",
    "Fierro.C62_linear_field_2d",
    "Fierro.C62_gradient_sign_2d_fails"
   ],
   "note": "C62_gradient_sign_fails: the stored gradient has the wrong sign. Boundary conditions on the front direction are those of C25 scaled to unit length."
  },
  {
   "property": "C63",
   "status": "proved",
   "theorems": [
    "Fierro.C63_signum",
    "Fierro.C63_average",
    "Fierro.C63_upwind",
    "Fierro.C63_new_value",
    "Fierro.C63_finite_speed",
    "Fierro.C63_distance_function",
    "Fierro.C63_consistent",
    "Fierro.C63_normal_sign_harmless",
    "Fierro.C63_stage",
    "Fierro.C63_reinit_sign",
    "Fierro.C63_schedules",
    "Fierro.C63_smoothing_length_fails",
    "Fierro.C63_boundary",
    "Fierro.C63_stage_velocity",
    "Fierro.C63_stages"
   ],
   "note": "C63_smoothing_length_fails: plane smoothing length depends on the radius. Exactness theorems hold up to the safeguards fuzz, which are explicit in the bounds."
  },
  {
   "property": "C64",
   "status": "proved",
   "theorems": [
    "Fierro.C64_cfl",
    "Fierro.C64_limits",
    "Fierro.C64_run_ends",
    "Fierro.C64_time_increases",
    "Fierro.C64_step_growth_fails",
    "Fierro.C64_overshoot_fails",
    "Fierro.C64_negative_velocity_fails"
   ],
   "note": "C64_negative_velocity_fails, C64_step_growth_fails and C64_overshoot_fails are defects of the source."
  },
  {
   "property": "C65",
   "status": "proved",
   "theorems": [
    "Fierro.C65_inverse",
    "Fierro.C65_finished_iff",
    "Fierro.C65_flag",
    "Fierro.C65_column_major",
    "Fierro.C65_positive_definite",
    "Fierro.C65_solve",
    "Fierro.C65_power",
    "Fierro.C65_regular_fails",
    "Fierro.C65_newton_matrix_fails"
   ],
   "note": "C65_regular_fails and C65_newton_matrix_fails: no pivoting, failure not reported."
  },
  {
   "property": "C66",
   "status": "proved",
   "theorems": [
    "Fierro.C66_tensor_roundtrip",
    "Fierro.C66_symmetric_roundtrip",
    "Fierro.C66_deviator",
    "Fierro.C66_vector_roundtrip",
    "Fierro.C66_symmetric",
    "Fierro.C66_traceless",
    "Fierro.C66_inner",
    "Fierro.C66_inner_deviator",
    "Fierro.C66_matrix_action",
    "Fierro.C66_fourth_roundtrip",
    "Fierro.C66_inverse_tensor",
    "Fierro.C66_source_constants"
   ],
   "note": "Stated for exact constants; C66_source_constants bounds the error of the literals in the source."
  },
  {
   "property": "C67",
   "status": "proved",
   "theorems": [
    "Fierro.C67_voigt_entries",
    "Fierro.C67_voigt_roundtrip",
    "Fierro.C67_voigt_symmetries",
    "Fierro.C67_voigt_hooke",
    "Fierro.C67_voigt_positive",
    "Fierro.C67_compliance",
    "Fierro.C67_isotropic",
    "Fierro.C67_uniaxial",
    "Fierro.C67_isotropic_positive",
    "Fierro.C67_phase_stiffness",
    "Fierro.C67_antisymmetric_option_fails",
    "Fierro.C67_antisymmetric_shear"
   ],
   "note": "Isotropic and anisotropic input branches."
  },
  {
   "property": "C68",
   "status": "proved",
   "theorems": [
    "Fierro.C68_rotated_action",
    "Fierro.C68_energy",
    "Fierro.C68_symmetries",
    "Fierro.C68_positive",
    "Fierro.C68_isotropic",
    "Fierro.C68_reference",
    "Fierro.C68_compliance_tensor",
    "Fierro.C68_homogeneous",
    "Fierro.C68_isotropic_polycrystal"
   ],
   "note": "Single process; the sum over processes is a sum over the points."
  },
  {
   "property": "C69",
   "status": "proved",
   "theorems": [
    "Fierro.C69_euler_rotation",
    "Fierro.C69_stored_rotation",
    "Fierro.C69_euler_roundtrip",
    "Fierro.C69_texture_roundtrip",
    "Fierro.C69_near_pole_fails",
    "Fierro.C69_increment_rotation",
    "Fierro.C69_history",
    "Fierro.C69_axis_angle",
    "Fierro.C69_axis_fixed",
    "Fierro.C69_gas",
    "Fierro.C69_slip_no_rotation",
    "Fierro.C69_rigid_spin",
    "Fierro.C69_small_rotation_fails"
   ],
   "note": "C69_near_pole_fails and C69_small_rotation_fails document the thresholds of the source."
  },
  {
   "property": "C70",
   "status": "proved",
   "theorems": [
    "Fierro.C70_cubic_orthogonality",
    "Fierro.C70_hex_orthogonality",
    "Fierro.C70_unit_length",
    "Fierro.C70_accepted",
    "Fierro.C70_normality_check_fails",
    "Fierro.C70_schmid_tensor",
    "Fierro.C70_resolved_shear",
    "Fierro.C70_schmid_length",
    "Fierro.C70_active_modes",
    "Fierro.C70_mode_order_fails",
    "Fierro.C70_mode_numbers_fails"
   ],
   "note": "C70_normality_check_fails, C70_mode_order_fails and C70_mode_numbers_fails are defects of the source."
  },
  {
   "property": "C71",
   "status": "proved",
   "theorems": [
    "Fierro.C71_increment",
    "Fierro.C71_linear",
    "Fierro.C71_accumulated",
    "Fierro.C71_no_slip",
    "Fierro.C71_history",
    "Fierro.C71_never_softens",
    "Fierro.C71_saturation",
    "Fierro.C71_small_slope_fails"
   ],
   "note": "Voce law (default build)."
  },
  {
   "property": "C72",
   "status": "proved",
   "theorems": [
    "Fierro.C72_flow_rule",
    "Fierro.C72_monotone",
    "Fierro.C72_tangent",
    "Fierro.C72_traceless",
    "Fierro.C72_dissipation",
    "Fierro.C72_unique",
    "Fierro.C72_constitutive",
    "Fierro.C72_jacobian_regular",
    "Fierro.C72_jacobian_exact",
    "Fierro.C72_newton_step",
    "Fierro.C72_terminates",
    "Fierro.C72_gas",
    "Fierro.C72_elastic",
    "Fierro.C72_result",
    "Fierro.C72_acceptance_fails"
   ],
   "note": "C72_acceptance_fails: acceptance test depends on units. Newton results assume the unpivoted inversion completes (see C65)."
  },
  {
   "property": "C73",
   "status": "proved",
   "theorems": [
    "Fierro.C73_field_mean",
    "Fierro.C73_field_real",
    "Fierro.C73_field_displacement",
    "Fierro.C73_interpolation",
    "Fierro.C73_field_equilibrium",
    "Fierro.C73_field_response",
    "Fierro.C73_wave_numbers",
    "Fierro.C73_opposite",
    "Fierro.C73_compatible",
    "Fierro.C73_reference_response",
    "Fierro.C73_equilibrated",
    "Fierro.C73_projection",
    "Fierro.C73_direction_only",
    "Fierro.C73_highest_frequency",
    "Fierro.C73_mean_untouched"
   ],
   "note": "Field statements take stresses without content at the highest frequency of even grids. FFT library taken as the exact discrete transform; ranks taken as one."
  },
  {
   "property": "C74",
   "status": "proved",
   "theorems": [
    "Fierro.C74_rate_flags",
    "Fierro.C74_mixed_input",
    "Fierro.C74_given_rates",
    "Fierro.C74_stress_target",
    "Fierro.C74_given_rate_kept",
    "Fierro.C74_given_gradient_fails",
    "Fierro.C74_grid_average",
    "Fierro.C74_given_rates_followed",
    "Fierro.C74_velocity_gradient",
    "Fierro.C74_reported_gradient_fails",
    "Fierro.C74_uniform_stress",
    "Fierro.C74_stress_correction",
    "Fierro.C74_stress_control",
    "Fierro.C74_iterations",
    "Fierro.C74_zero_tolerance_fails",
    "Fierro.C74_equivalent_strain",
    "Fierro.C74_equivalent_stress",
    "Fierro.C74_stress_routines_agree",
    "Fierro.C74_strain_routines_agree",
    "Fierro.C74_uniaxial",
    "Fierro.C74_work_bound",
    "Fierro.C74_back_stress",
    "Fierro.C74_phase_average",
    "Fierro.C74_phase_average_fails",
    "Fierro.C74_spacing",
    "Fierro.C74_thin_sample_fails"
   ],
   "note": "C74_given_gradient_fails, C74_reported_gradient_fails, C74_zero_tolerance_fails, C74_phase_average_fails, C74_thin_sample_fails: defects of the code."
  },
  {
   "property": "C75",
   "status": "proved",
   "theorems": [
    "Fierro.C75_deformation_delivered",
    "Fierro.C75_time_delivered",
    "Fierro.C75_positive_increments",
    "Fierro.C75_pending_bounded",
    "Fierro.C75_hold_time_fails",
    "Fierro.C75_grid_follows",
    "Fierro.C75_host_deformation",
    "Fierro.C75_reported_strain_fails",
    "Fierro.C75_extrapolation",
    "Fierro.C75_extrapolation_elastic",
    "Fierro.C75_stress_returned",
    "Fierro.C75_tangent_average",
    "Fierro.C75_gas_tangent_fails"
   ],
   "note": "C75_hold_time_fails, C75_reported_strain_fails, C75_gas_tangent_fails: defects of the code."
  },
  {
   "property": "C76",
   "status": "proved",
   "theorems": [
    "Fierro.C76_weights_sum",
    "Fierro.C76_patch_through_nodes",
    "Fierro.C76_patch_translation",
    "Fierro.C76_weights_nonneg",
    "Fierro.C76_patch_in_box",
    "Fierro.C76_tangent_xi",
    "Fierro.C76_tangent_eta",
    "Fierro.C76_normal",
    "Fierro.C76_mixed_derivative_fails",
    "Fierro.C76_normal_derivatives",
    "Fierro.C76_prediction"
   ],
   "note": "C76_mixed_derivative_fails: defect of the code."
  },
  {
   "property": "C77",
   "status": "proved",
   "theorems": [
    "Fierro.C77_face_coordinates",
    "Fierro.C77_normals_outward",
    "Fierro.C77_normals_outward_pos",
    "Fierro.C77_column",
    "Fierro.C77_face_nodes"
   ],
   "note": ""
  },
  {
   "property": "C78",
   "status": "proved",
   "theorems": [
    "Fierro.C78_penetrates_iff",
    "Fierro.C78_inside_found",
    "Fierro.C78_parallelepiped",
    "Fierro.C78_parallelepiped_inside",
    "Fierro.C78_relative_tolerance_fails"
   ],
   "note": "C78_relative_tolerance_fails: defect of the code."
  },
  {
   "property": "C79",
   "status": "proved",
   "theorems": [
    "Fierro.C79_solution_kept",
    "Fierro.C79_update_linearised",
    "Fierro.C79_converged",
    "Fierro.C79_newton_sequence",
    "Fierro.C79_parallelepiped",
    "Fierro.C79_foot",
    "Fierro.C79_foot_nearest",
    "Fierro.C79_pair_point"
   ],
   "note": ""
  },
  {
   "property": "C80",
   "status": "proved",
   "theorems": [
    "Fierro.C80_dims",
    "Fierro.C80_in_grid",
    "Fierro.C80_same_bucket",
    "Fierro.C80_visited",
    "Fierro.C80_box_covered",
    "Fierro.C80_capture_box",
    "Fierro.C80_bucket_contents",
    "Fierro.C80_sorted_permutation",
    "Fierro.C80_recorded",
    "Fierro.C80_test",
    "Fierro.C80_depth",
    "Fierro.C80_found",
    "Fierro.C80_bucket_array_fails"
   ],
   "note": "C80_bucket_array_fails: defect of the code."
  },
  {
   "property": "C81",
   "status": "proved",
   "theorems": [
    "Fierro.C81_action_reaction",
    "Fierro.C81_distribute_total",
    "Fierro.C81_total_zero",
    "Fierro.C81_moment",
    "Fierro.C81_no_moment",
    "Fierro.C81_no_tension",
    "Fierro.C81_edge",
    "Fierro.C81_converged",
    "Fierro.C81_superposition",
    "Fierro.C81_relaxation",
    "Fierro.C81_copied",
    "Fierro.C81_stage_momentum",
    "Fierro.C81_release_fails"
   ],
   "note": "C81_release_fails: defect of the code."
  },
  {
   "property": "C82",
   "status": "proved",
   "theorems": [
    "Fierro.C82_elements",
    "Fierro.C82_no_elements",
    "Fierro.C82_nearest",
    "Fierro.C82_preload",
    "Fierro.C82_unchosen",
    "Fierro.C82_pairs",
    "Fierro.C82_duplicate_pair_fails",
    "Fierro.C82_units_fails",
    "Fierro.C82_active_set",
    "Fierro.C82_surface_map"
   ],
   "note": "C82_duplicate_pair_fails, C82_units_fails: defects of the code."
  },
  {
   "property": "C83",
   "status": "proved",
   "theorems": [
    "Fierro.C83_gap",
    "Fierro.C83_force_column",
    "Fierro.C83_coordinate_columns",
    "Fierro.C83_jacobian_fails",
    "Fierro.C83_turning_normal",
    "Fierro.C83_converged",
    "Fierro.C83_frame",
    "Fierro.C83_normal_at_point",
    "Fierro.C83_no_change",
    "Fierro.C83_first_guess_fails",
    "Fierro.C83_guess",
    "Fierro.C83_singular"
   ],
   "note": "C83_jacobian_fails, C83_first_guess_fails: defects of the code."
  },
  {
   "property": "C84",
   "status": "proved",
   "theorems": [
    "Fierro.C84_pairs_exact",
    "Fierro.C84_pairs_once",
    "Fierro.C84_pairs_fit",
    "Fierro.C84_slots_suffice",
    "Fierro.C84_corner_faces",
    "Fierro.C84_corner_found",
    "Fierro.C84_match_sound",
    "Fierro.C84_match_once",
    "Fierro.C84_match_maximal",
    "Fierro.C84_match_complete",
    "Fierro.C84_second_face_fails"
   ],
   "note": "C84_second_face_fails: defect of the code."
  },
  {
   "property": "C85",
   "status": "proved",
   "theorems": [
    "Fierro.C85_face_normal",
    "Fierro.C85_normal_le_one",
    "Fierro.C85_facing",
    "Fierro.C85_orientation_unit",
    "Fierro.C85_orientation_flat",
    "Fierro.C85_opening_pythagoras",
    "Fierro.C85_opening_prediction",
    "Fierro.C85_opening_rigid",
    "Fierro.C85_area_flat",
    "Fierro.C85_area_rule",
    "Fierro.C85_pair_area"
   ],
   "note": ""
  },
  {
   "property": "C86",
   "status": "proved",
   "theorems": [
    "Fierro.C86_damage_range",
    "Fierro.C86_damage_unit",
    "Fierro.C86_damage_rule",
    "Fierro.C86_commit_last",
    "Fierro.C86_rate",
    "Fierro.C86_branch_exact",
    "Fierro.C86_elastic_step",
    "Fierro.C86_elastic_law",
    "Fierro.C86_elastic_drift",
    "Fierro.C86_broken_frozen",
    "Fierro.C86_prony_first",
    "Fierro.C86_prony_hold",
    "Fierro.C86_prony_law_fails",
    "Fierro.C86_broken_free_fails",
    "Fierro.C86_compression_fails",
    "Fierro.C86_prony_terms",
    "Fierro.C86_prony_terms_fails"
   ],
   "note": "C86_prony_law_fails, C86_broken_free_fails, C86_compression_fails, C86_prony_terms_fails: defects of the code."
  },
  {
   "property": "C87",
   "status": "proved",
   "theorems": [
    "Fierro.C87_node_force",
    "Fierro.C87_total_zero",
    "Fierro.C87_moment",
    "Fierro.C87_stage_momentum",
    "Fierro.C87_pair_components",
    "Fierro.C87_pair_work",
    "Fierro.C87_no_area",
    "Fierro.C87_pair_moment",
    "Fierro.C87_pair_moment_free",
    "Fierro.C87_moment_free_fails"
   ],
   "note": "C87_moment_free_fails: limitation of the code."
  },
  {
   "property": "C88",
   "status": "proved",
   "theorems": [
    "Fierro.C88_rotation",
    "Fierro.C88_motion",
    "Fierro.C88_opening_now",
    "Fierro.C88_opening_next",
    "Fierro.C88_turning_crack_fails"
   ],
   "note": "C88_turning_crack_fails: defect of the code."
  },
  {
   "property": "C89",
   "status": "proved",
   "theorems": [
    "Fierro.C89_truncation",
    "Fierro.C89_zero",
    "Fierro.C89_reversal",
    "Fierro.C89_isochoric",
    "Fierro.C89_single_slip",
    "Fierro.C89_spin_fails",
    "Fierro.C89_update",
    "Fierro.C89_reference_rate",
    "Fierro.C89_history",
    "Fierro.C89_small_increment"
   ],
   "note": "C89_spin_fails: limitation of the code."
  },
  {
   "property": "C90",
   "status": "proved",
   "theorems": [
    "Fierro.C90_start",
    "Fierro.C90_turn",
    "Fierro.C90_iteration",
    "Fierro.C90_update",
    "Fierro.C90_step",
    "Fierro.C90_rate_change_fails",
    "Fierro.C90_no_update_fails"
   ],
   "note": "C90_rate_change_fails, C90_no_update_fails: defects of the code."
  },
  {
   "property": "C91",
   "status": "proved",
   "theorems": [
    "Fierro.C91_polar",
    "Fierro.C91_inversions",
    "Fierro.C91_rotation",
    "Fierro.C91_quarter_turn_fails"
   ],
   "note": "C91_quarter_turn_fails: defect of the code."
  },
  {
   "property": "C92",
   "status": "proved",
   "theorems": [
    "Fierro.C92_start",
    "Fierro.C92_step",
    "Fierro.C92_run",
    "Fierro.C92_stress",
    "Fierro.C92_rigid_turn"
   ],
   "note": ""
  },
  {
   "property": "C93",
   "status": "proved",
   "theorems": [
    "Fierro.C93_crystal_traceless",
    "Fierro.C93_schmid_tensor",
    "Fierro.C93_resolved_shear",
    "Fierro.C93_rates_agree",
    "Fierro.C93_isotropic",
    "Fierro.C93_single_slip",
    "Fierro.C93_volume_error",
    "Fierro.C93_volume_fails"
   ],
   "note": "C93_volume_fails: limitation of the code."
  },
  {
   "property": "C94",
   "status": "proved",
   "theorems": [
    "Fierro.C94_flow_rule",
    "Fierro.C94_dissipation",
    "Fierro.C94_isotropic",
    "Fierro.C94_monotone",
    "Fierro.C94_tangent_exact",
    "Fierro.C94_tangent_nonneg",
    "Fierro.C94_reference_rate_fails",
    "Fierro.C94_pressure_fails",
    "Fierro.C94_equivalent_rate",
    "Fierro.C94_flow_stress",
    "Fierro.C94_history"
   ],
   "note": "C94_reference_rate_fails, C94_pressure_fails: defects of the code."
  },
  {
   "property": "C95",
   "status": "proved",
   "theorems": [
    "Fierro.C95_reference_energy",
    "Fierro.C95_reference_stress",
    "Fierro.C95_green_strain",
    "Fierro.C95_reference_positive",
    "Fierro.C95_undeformed",
    "Fierro.C95_green_mean",
    "Fierro.C95_green_nonpositive",
    "Fierro.C95_symmetric",
    "Fierro.C95_current_energy",
    "Fierro.C95_current_positive",
    "Fierro.C95_iteration_data",
    "Fierro.C95_scaling",
    "Fierro.C95_scaled_inverse",
    "Fierro.C95_definite_fails"
   ],
   "note": "C95_definite_fails: limitation of the code."
  },
  {
   "property": "C96",
   "status": "proved",
   "theorems": [
    "Fierro.C96_position",
    "Fierro.C96_opposite",
    "Fierro.C96_ranks",
    "Fierro.C96_reference",
    "Fierro.C96_closest",
    "Fierro.C96_mean",
    "Fierro.C96_velocity",
    "Fierro.C96_uniform",
    "Fierro.C96_output",
    "Fierro.C96_output_spacing_fails",
    "Fierro.C96_output_stretch_fails"
   ],
   "note": "C96_output_spacing_fails, C96_output_stretch_fails: defects of the output routine."
  },
  {
   "property": "C97",
   "status": "proved",
   "theorems": [
    "Fierro.C97_power",
    "Fierro.C97_driving",
    "Fierro.C97_total_power"
   ],
   "note": ""
  },
  {
   "property": "C98",
   "status": "proved",
   "theorems": [
    "Fierro.C98_unique",
    "Fierro.C98_constitutive",
    "Fierro.C98_jacobian_regular",
    "Fierro.C98_jacobian_exact",
    "Fierro.C98_full_step",
    "Fierro.C98_cut",
    "Fierro.C98_cut_descends",
    "Fierro.C98_start",
    "Fierro.C98_terminates",
    "Fierro.C98_descends",
    "Fierro.C98_exit",
    "Fierro.C98_stored_rate",
    "Fierro.C98_ten_cuts_fails"
   ],
   "note": "C98_ten_cuts_fails: limitation of the code."
  },
  {
   "property": "C99",
   "status": "proved",
   "theorems": [
    "Fierro.C99_round_trip",
    "Fierro.C99_indentation",
    "Fierro.C99_children_without_content",
    "Fierro.C99_empty_text_fails",
    "Fierro.C99_empty_node_fails",
    "Fierro.C99_quote_fails",
    "Fierro.C99_line_feed_fails",
    "Fierro.C99_blank_ends_fails",
    "Fierro.C99_two_signs_fails",
    "Fierro.C99_newline_block_fails"
   ],
   "note": "Unbounded trees; the class of safe keys and texts is defined in the file, what is outside fails by witnesses."
  },
  {
   "property": "C100",
   "status": "proved",
   "theorems": [
    "Fierro.C100_spectral_radius",
    "Fierro.C100_singular_fails",
    "Fierro.C100_unit_fails"
   ],
   "note": "Exact real arithmetic. C100_singular_fails, C100_unit_fails: limitations of the helper (defined in the code, never called)."
  },
  {
   "property": "C101",
   "status": "proved",
   "theorems": [
    "Fierro.C101_element_fields",
    "Fierro.C101_in_bounds",
    "Fierro.C101_material_in_bounds",
    "Fierro.C101_total_mass",
    "Fierro.C101_uniform",
    "Fierro.C101_energy",
    "Fierro.C101_words",
    "Fierro.C101_requests",
    "Fierro.C101_requests_ready",
    "Fierro.C101_repeated_name_fails",
    "Fierro.C101_material_fields"
   ],
   "note": "All schedules. Values of unallocated arrays (for example a level set asked for without that solver) are not modelled. C101_repeated_name_fails: defect of the code."
  },
  {
   "property": "C102",
   "status": "proved",
   "theorems": [
    "Fierro.C102_node_fields",
    "Fierro.C102_in_bounds",
    "Fierro.C102_coords_fails",
    "Fierro.C102_force_fails"
   ],
   "note": "All schedules. C102_coords_fails (typing error in an index, race), C102_force_fails: defects of the code."
  },
  {
   "property": "C103",
   "status": "proved",
   "theorems": [
    "Fierro.C103_reader",
    "Fierro.C103_abaqus",
    "Fierro.C103_labels",
    "Fierro.C103_labels_fails",
    "Fierro.C103_comment_fails",
    "Fierro.C103_capitals_fails",
    "Fierro.C103_continuation_fails"
   ],
   "note": "Texts of any length; how a number is read from a stream is a parameter with its contract (StreamReads). C103_labels_fails, C103_comment_fails, C103_capitals_fails, C103_continuation_fails: limitations of the reader."
  },
  {
   "property": "C104",
   "status": "proved",
   "theorems": [
    "Fierro.C104_vtk",
    "Fierro.C104_no_types",
    "Fierro.C104_negative",
    "Fierro.C104_points_per_line_fails",
    "Fierro.C104_two_blanks_fails",
    "Fierro.C104_quads_fails"
   ],
   "note": "Texts of any length; stod is a parameter. C104_points_per_line_fails, C104_two_blanks_fails, C104_quads_fails: limitations of the reader."
  },
  {
   "property": "C105",
   "status": "proved",
   "theorems": [
    "Fierro.C105_accepts",
    "Fierro.C105_corners",
    "Fierro.C105_conforming",
    "Fierro.C105_area",
    "Fierro.C105_area_converges",
    "Fierro.C105_negative_radius_fails",
    "Fierro.C105_positive_radius_refused_fails",
    "Fierro.C105_angles_backwards_fails"
   ],
   "note": "Exact real arithmetic. C105_negative_radius_fails, C105_positive_radius_refused_fails, C105_angles_backwards_fails: defects of the code."
  },
  {
   "property": "C106",
   "status": "proved",
   "theorems": [
    "Fierro.C106_density",
    "Fierro.C106_pressure",
    "Fierro.C106_no_eos",
    "Fierro.C106_state_strength_density",
    "Fierro.C106_state_strength_density_iff",
    "Fierro.C106_mixed_density_fails",
    "Fierro.C106_permanent_step",
    "Fierro.C106_erodes_iff",
    "Fierro.C106_void",
    "Fierro.C106_lawful",
    "Fierro.C106_permanent_run",
    "Fierro.C106_density_run",
    "Fierro.C106_host_strength_fails",
    "Fierro.C106_device_strength"
   ],
   "note": "Material models are arbitrary functions. C106_mixed_density_fails, C106_host_strength_fails: defects of the code."
  },
  {
   "property": "C107",
   "status": "proved",
   "theorems": [
    "Fierro.C107_bounds",
    "Fierro.C107_cfl",
    "Fierro.C107_positive",
    "Fierro.C107_eroded_free",
    "Fierro.C107_terminates",
    "Fierro.C107_defined_iff",
    "Fierro.C107_progress",
    "Fierro.C107_dumps",
    "Fierro.C107_requested_dumps",
    "Fierro.C107_step_restored"
   ],
   "note": "Exact real arithmetic; the physics of a cycle is an arbitrary history."
  },
  {
   "property": "C108",
   "status": "proved",
   "theorems": [
    "Fierro.C108_accepts_iff",
    "Fierro.C108_own_block",
    "Fierro.C108_sets",
    "Fierro.C108_room",
    "Fierro.C108_switches",
    "Fierro.C108_contact_limits",
    "Fierro.C108_velocity_calls",
    "Fierro.C108_thermal",
    "Fierro.C108_stress_calls_iff",
    "Fierro.C108_origin",
    "Fierro.C108_none_fails",
    "Fierro.C108_heat_flux_fails",
    "Fierro.C108_misspelt_temperature_fails",
    "Fierro.C108_thermal_solver_id_fails",
    "Fierro.C108_contact_on_plane_fails",
    "Fierro.C108_plane_and_radius_fails",
    "Fierro.C108_untyped_surface_fails",
    "Fierro.C108_global_surface_fails"
   ],
   "note": "Conversions of YAML values are arbitrary functions. The _fails theorems are defects of the code."
  },
  {
   "property": "C109",
   "status": "proved",
   "theorems": [
    "Fierro.C109_accepts_iff",
    "Fierro.C109_sets",
    "Fierro.C109_order",
    "Fierro.C109_tables",
    "Fierro.C109_calls",
    "Fierro.C109_eos_omitted_fails",
    "Fierro.C109_eos_type_fails",
    "Fierro.C109_no_eos_type_fails",
    "Fierro.C109_no_dissipation_fails",
    "Fierro.C109_missing_models_fails",
    "Fierro.C109_void_fails",
    "Fierro.C109_strength_omitted_fails",
    "Fierro.C109_strength_type_fails",
    "Fierro.C109_erosion_fails",
    "Fierro.C109_shared_tables_fails",
    "Fierro.C109_no_tabular_fails"
   ],
   "note": "CPU build without the optional model headers. Conversions of YAML values and the table reader (modelled in C111) are arbitrary functions. The _fails theorems are defects of the code."
  },
  {
   "property": "C110",
   "status": "proved",
   "theorems": [
    "Fierro.C110_accepts_iff",
    "Fierro.C110_sets",
    "Fierro.C110_equilibration",
    "Fierro.C110_geo_fails",
    "Fierro.C110_user_defined_fails",
    "Fierro.C110_vars_fails"
   ],
   "note": "Keys of a YAML map are sorted. The _fails theorems are defects of the code."
  },
  {
   "property": "C111",
   "status": "proved",
   "theorems": [
    "Fierro.C111_reads",
    "Fierro.C111_missing",
    "Fierro.C111_lookup",
    "Fierro.C111_point",
    "Fierro.C111_round_trip",
    "Fierro.C111_bad_line_fails",
    "Fierro.C111_one_column_fails",
    "Fierro.C111_descending_fails",
    "Fierro.C111_missing_table_fails"
   ],
   "note": "The number format is any one that stod reads back. The _fails theorems are defects of the code."
  },
  {
   "property": "C112",
   "status": "proved",
   "theorems": [
    "Fierro.C112_accepts_iff",
    "Fierro.C112_sets",
    "Fierro.C112_read",
    "Fierro.C112_no_path",
    "Fierro.C112_path",
    "Fierro.C112_generate",
    "Fierro.C112_box3",
    "Fierro.C112_box2",
    "Fierro.C112_polar",
    "Fierro.C112_polar_refused",
    "Fierro.C112_counts_fails",
    "Fierro.C112_length_fails",
    "Fierro.C112_order_fails",
    "Fierro.C112_fraction_fails",
    "Fierro.C112_polar3_fails",
    "Fierro.C112_exit_fails",
    "Fierro.C112_type_fails",
    "Fierro.C112_dims_fails"
   ],
   "note": "Conversions of YAML values, lexically_normal and the file system are arbitrary functions; the contents of mesh files are C20-C23, C103 and C104. The _fails theorems are defects of the code."
  },
  {
   "property": "C113",
   "status": "proved",
   "theorems": [
    "Fierro.C113_accepts_iff",
    "Fierro.C113_own_block",
    "Fierro.C113_solvers",
    "Fierro.C113_fields",
    "Fierro.C113_negative_density_fails",
    "Fierro.C113_no_value_fails",
    "Fierro.C113_misspelt_volume_fails",
    "Fierro.C113_material_fails",
    "Fierro.C113_order_fails",
    "Fierro.C113_vtu_path_fails",
    "Fierro.C113_solver_range_fails"
   ],
   "note": "Conversions of YAML values are arbitrary functions; keys of a YAML map are sorted. The _fails theorems are defects of the code."
  },
  {
   "property": "C114",
   "status": "proved",
   "theorems": [
    "Fierro.C114_defined_iff",
    "Fierro.C114_instructions",
    "Fierro.C114_last_region",
    "Fierro.C114_uncovered",
    "Fierro.C114_misspelt_volume_fails",
    "Fierro.C114_solver_fails",
    "Fierro.C114_vortex_fails",
    "Fierro.C114_origin_fails"
   ],
   "note": "Exact real arithmetic; the contents of voxel files are C37, the painting itself is C17-C19. The _fails theorems are defects of the code."
  },
  {
   "property": "C115",
   "status": "proved",
   "theorems": [
    "Fierro.C115_reads",
    "Fierro.C115_fill",
    "Fierro.C115_blanks_fails",
    "Fierro.C115_surplus_fails",
    "Fierro.C115_header_fails",
    "Fierro.C115_no_table_fails",
    "Fierro.C115_single_voxel_fails",
    "Fierro.C115_number_fails"
   ],
   "note": "Exact real arithmetic; the text of real numbers and stod are any pair that match; the file ends with a line break. The _fails theorems are defects of the code."
  },
  {
   "property": "C116",
   "status": "proved",
   "theorems": [
    "Fierro.C116_direction",
    "Fierro.C116_scheme",
    "Fierro.C116_symmetry",
    "Fierro.C116_range",
    "Fierro.C116_corners",
    "Fierro.C116_degrees_fails",
    "Fierro.C116_frame_fails",
    "Fierro.C116_large_fails"
   ],
   "note": "Exact real arithmetic; the literal for pi is pi. The _fails theorems are defects of the code."
  },
  {
   "property": "C117",
   "status": "proved",
   "theorems": [
    "Fierro.C117_arrays",
    "Fierro.C117_cells",
    "Fierro.C117_pvtu",
    "Fierro.C117_pieces_agree",
    "Fierro.C117_positions",
    "Fierro.C117_elastic",
    "Fierro.C117_positions_fails",
    "Fierro.C117_stretch_twice_fails",
    "Fierro.C117_gas_fails"
   ],
   "note": "Exact real arithmetic; the XML text is reduced to names and offsets, sizes do not overflow. The _fails theorems are defects of the code."
  },
  {
   "property": "C118",
   "status": "proved",
   "theorems": [
    "Fierro.C118_text",
    "Fierro.C118_short_fails",
    "Fierro.C118_subscripts_fails",
    "Fierro.C118_lattice",
    "Fierro.C118_lattice_fails",
    "Fierro.C118_hdf5",
    "Fierro.C118_hdf5_rank_fails",
    "Fierro.C118_texture",
    "Fierro.C118_texture_ranks_fails"
   ],
   "note": "The conversion of characters to numbers is any function that understands the texts given; H5Dread by contract. The _fails theorems are defects of the code."
  },
  {
   "property": "C119",
   "status": "proved",
   "theorems": [
    "Fierro.C119_deck",
    "Fierro.C119_stops",
    "Fierro.C119_crystal_files",
    "Fierro.C119_time_step",
    "Fierro.C119_time_step_fails",
    "Fierro.C119_phases_fails",
    "Fierro.C119_blank_title_fails",
    "Fierro.C119_field_output_fails",
    "Fierro.C119_eigenstrain",
    "Fierro.C119_eigenstrain_fails"
   ],
   "note": "The conversion of characters to numbers is any function that understands the texts given; exact real arithmetic; the files of phases and grains are read elsewhere. The _fails theorems are defects of the code."
  },
  {
   "property": "C120",
   "status": "proved",
   "theorems": [
    "Fierro.C120_crystal",
    "Fierro.C120_twins",
    "Fierro.C120_stops",
    "Fierro.C120_room_fails",
    "Fierro.C120_units_fails",
    "Fierro.C120_j2_units_fails",
    "Fierro.C120_ls",
    "Fierro.C120_elastic",
    "Fierro.C120_elastic_fails"
   ],
   "note": "The conversion of characters to numbers is any function that understands the texts given; exact real arithmetic. The _fails theorems are defects of the code."
  },
  {
   "property": "C121",
   "status": "proved",
   "theorems": [
    "Fierro.C121_files",
    "Fierro.C121_names",
    "Fierro.C121_room",
    "Fierro.C121_resolves"
   ],
   "note": "Opening files and making directories succeed; names are compared as character strings."
  },
  {
   "property": "C122",
   "status": "proved",
   "theorems": [
    "Fierro.C122_material_rows",
    "Fierro.C122_node_rows",
    "Fierro.C122_axis_fails",
    "Fierro.C122_scalars",
    "Fierro.C122_bare_fails",
    "Fierro.C122_mixed_fails",
    "Fierro.C122_vectors",
    "Fierro.C122_state_files",
    "Fierro.C122_state_file_names",
    "Fierro.C122_same_time_fails",
    "Fierro.C122_ensight_files",
    "Fierro.C122_ensight_chain_fails"
   ],
   "note": "Exact real arithmetic, printed numbers are not rounded; the format of the time is any function. The _fails theorems are defects of the code."
  },
  {
   "property": "C123",
   "status": "proved",
   "theorems": [
    "Fierro.C123_run",
    "Fierro.C123_progress",
    "Fierro.C123_properties_frozen_fails",
    "Fierro.C123_tables_unread_fails",
    "Fierro.C123_source_start_fails",
    "Fierro.C123_dumps",
    "Fierro.C123_conserves",
    "Fierro.C123_completes",
    "Fierro.C123_stable",
    "Fierro.C123_tables"
   ],
   "note": "Exact real arithmetic; the nodes do not move. The _fails theorems are defects of the code."
  },
  {
   "property": "C124",
   "status": "proved",
   "theorems": [
    "Fierro.C124_closed_form",
    "Fierro.C124_highest_frequency_fails",
    "Fierro.C124_defined",
    "Fierro.C124_gradient",
    "Fierro.C124_gradient_exact",
    "Fierro.C124_velocity",
    "Fierro.C124_weight_fails",
    "Fierro.C124_hourglass_fails",
    "Fierro.C124_green",
    "Fierro.C124_green_field",
    "Fierro.C124_self_response",
    "Fierro.C124_nodes",
    "Fierro.C124_nodes_fails",
    "Fierro.C124_last_node_fails",
    "Fierro.C124_half_spectrum"
   ],
   "note": "Exact real arithmetic, ideal sine, cosine and tangent; the circle constant is a parameter. The _fails theorems are defects of the code."
  },
  {
   "property": "C125",
   "status": "proved",
   "theorems": [
    "Fierro.C125_surface",
    "Fierro.C125_surface_fails",
    "Fierro.C125_vertices",
    "Fierro.C125_surface_velocity",
    "Fierro.C125_boundary",
    "Fierro.C125_surface_points",
    "Fierro.C125_surface_motion",
    "Fierro.C125_weights",
    "Fierro.C125_weights_fails",
    "Fierro.C125_interpolation",
    "Fierro.C125_interpolation_bounds",
    "Fierro.C125_walls",
    "Fierro.C125_error",
    "Fierro.C125_error_fails",
    "Fierro.C125_error_relative",
    "Fierro.C125_frame",
    "Fierro.C125_inside",
    "Fierro.C125_inside_fails",
    "Fierro.C125_passes",
    "Fierro.C125_passes_fails",
    "Fierro.C125_periodic_passes",
    "Fierro.C125_periodic_passes_fails",
    "Fierro.C125_stiffness"
   ],
   "note": "Exact real arithmetic, one rank. The _fails theorems are defects of the code."
  },
  {
   "property": "C126",
   "status": "proved",
   "theorems": [
    "Fierro.C126_point_response",
    "Fierro.C126_point_tangent",
    "Fierro.C126_point_energy",
    "Fierro.C126_mean_positive",
    "Fierro.C126_start",
    "Fierro.C126_run",
    "Fierro.C126_usable",
    "Fierro.C126_homogeneous",
    "Fierro.C126_quarter_turn_fails"
   ],
   "note": "Exact real arithmetic; the sum over ranks is one sum. C126_quarter_turn_fails is a defect of the code."
  },
  {
   "property": "C127",
   "status": "proved",
   "theorems": [
    "Fierro.C127_parameters",
    "Fierro.C127_off",
    "Fierro.C127_short_row_fails",
    "Fierro.C127_search",
    "Fierro.C127_no_test",
    "Fierro.C127_no_parameters_fails",
    "Fierro.C127_sides",
    "Fierro.C127_stages",
    "Fierro.C127_positions",
    "Fierro.C127_lag_fails",
    "Fierro.C127_normal",
    "Fierro.C127_history",
    "Fierro.C127_straight_pull",
    "Fierro.C127_damage_rotation",
    "Fierro.C127_traction_rotation_fails"
   ],
   "note": "Exact real arithmetic; components of the normal below 1e-13 are excluded by hypothesis. The _fails theorems are defects of the code."
  },
  {
   "property": "C128",
   "status": "proved",
   "theorems": [
    "Fierro.C128_outcome",
    "Fierro.C128_arrays",
    "Fierro.C128_run",
    "Fierro.C128_inside",
    "Fierro.C128_idle",
    "Fierro.C128_order",
    "Fierro.C128_hydro",
    "Fierro.C128_mixed_energy_fails",
    "Fierro.C128_no_energy_fails",
    "Fierro.C128_unchecked_fails",
    "Fierro.C128_thermal_dims_fails"
   ],
   "note": "Low order elements, one point per element. The _fails theorems are defects of the code."
  },
  {
   "property": "C129",
   "status": "proved",
   "theorems": [
    "Fierro.C129_law",
    "Fierro.C129_defined",
    "Fierro.C129_neighbours",
    "Fierro.C129_dual_edges",
    "Fierro.C129_neutral",
    "Fierro.C129_dissipative",
    "Fierro.C129_galilean",
    "Fierro.C129_aligned",
    "Fierro.C129_quiet_corner",
    "Fierro.C129_resistance_bound",
    "Fierro.C129_expansion_off",
    "Fierro.C129_coefficients_used",
    "Fierro.C129_collapsed_fails",
    "Fierro.C129_weighted_fails"
   ],
   "note": "Exact real arithmetic. The _fails theorems are defects of the code."
  },
  {
   "property": "C130",
   "status": "proved",
   "theorems": [
    "Fierro.C130_points",
    "Fierro.C130_pass",
    "Fierro.C130_schedules",
    "Fierro.C130_range_mass",
    "Fierro.C130_one_material",
    "Fierro.C130_filling",
    "Fierro.C130_run",
    "Fierro.C130_energy",
    "Fierro.C130_order",
    "Fierro.C130_twice_fails"
   ],
   "note": "One Gauss point per element, exact arithmetic, sequentially consistent memory. The _fails theorem is a defect of the code together with C18_duplicate_material_fails."
  },
  {
   "property": "C131",
   "status": "proved",
   "theorems": [
    "Fierro.C131_average",
    "Fierro.C131_position",
    "Fierro.C131_block",
    "Fierro.C131_single",
    "Fierro.C131_ranks_fails",
    "Fierro.C131_weights_fails",
    "Fierro.C131_highest",
    "Fierro.C131_single_layer_fails",
    "Fierro.C131_odd_fails",
    "Fierro.C131_stress",
    "Fierro.C131_jacobian",
    "Fierro.C131_constitutive"
   ],
   "note": "Exact real arithmetic. Only what differs from LS-EVPFFT is modelled anew. The _fails theorems are defects of the code."
  },
  {
   "property": "C132",
   "status": "proved",
   "theorems": [
    "Fierro.C132_sound",
    "Fierro.C132_hydro",
    "Fierro.C132_axisymmetric",
    "Fierro.C132_thermal",
    "Fierro.C132_level_set_pushed",
    "Fierro.C132_level_set_fails",
    "Fierro.C132_host_strength_fails",
    "Fierro.C132_moving_source_fails",
    "Fierro.C132_grid_motion_copied",
    "Fierro.C132_grid_motion_fails",
    "Fierro.C132_grid_motion_one_rank"
   ],
   "note": "The content of an array is one abstract value; kernels of the solvers may read and write any state array. Assumes that set_values acts on the device copy and that allocation leaves both copies equal (MATAR is not in the repository). The _fails theorems are defects of the code."
  },
  {
   "property": "C133",
   "status": "proved",
   "theorems": [
    "Fierro.C133_step",
    "Fierro.C133_run",
    "Fierro.C133_split",
    "Fierro.C133_buffers",
    "Fierro.C133_symmetric",
    "Fierro.C133_repeat_fails",
    "Fierro.C133_stride_fails",
    "Fierro.C133_directions_fails",
    "Fierro.C133_spacing_fails"
   ],
   "note": "The HDF5 library is its data model, the XDMF text the record of its entries; return codes of the library are ignored as in the code. The _fails theorems are defects of the code."
  },
  {
   "property": "C134",
   "status": "proved",
   "theorems": [
    "Fierro.C134_network",
    "Fierro.C134_zero_bias",
    "Fierro.C134_range",
    "Fierro.C134_order",
    "Fierro.C134_run",
    "Fierro.C134_bias_fails",
    "Fierro.C134_layer_bias_fails",
    "Fierro.C134_width_fails",
    "Fierro.C134_stress_fails"
   ],
   "note": "Exact real arithmetic instead of single precision. The _fails theorems are defects of the code."
  },
  {
   "property": "C135",
   "status": "proved",
   "theorems": [
    "Fierro.C135_split",
    "Fierro.C135_room",
    "Fierro.C135_balance",
    "Fierro.C135_run",
    "Fierro.C135_same",
    "Fierro.C135_library",
    "Fierro.C135_weight_fails"
   ],
   "note": "Exact arithmetic, so sums over ranks do not depend on their order. heFFTe enters as a contract of forward and backward transforms (C135_library shows it can be met); split_world is modelled. The spacing after a step and the average over the first phase are left out (they depend on the ranks, C74). C135_weight_fails is a defect of the code."
  },
  {
   "property": "C136",
   "status": "proved",
   "theorems": [
    "Fierro.C136_run",
    "Fierro.C136_order",
    "Fierro.C136_files",
    "Fierro.C136_device",
    "Fierro.C136_refused",
    "Fierro.C136_end",
    "Fierro.C136_after_end_fails",
    "Fierro.C136_again_fails",
    "Fierro.C136_deformation",
    "Fierro.C136_two_stages_fails",
    "Fierro.C136_output_fails"
   ],
   "note": "The response of a unit cell is any function; the theorem on deformation uses the model of EVPFFT::solve from C75. The _fails theorems are defects of the code."
  },
  {
   "property": "C137",
   "status": "proved",
   "theorems": [
    "Fierro.C137_run",
    "Fierro.C137_defined",
    "Fierro.C137_progress",
    "Fierro.C137_dump_times",
    "Fierro.C137_masses",
    "Fierro.C137_energy",
    "Fierro.C137_printed",
    "Fierro.C137_momentum",
    "Fierro.C137_boundary",
    "Fierro.C137_prescribed_fails",
    "Fierro.C137_no_stages_fails",
    "Fierro.C137_chain",
    "Fierro.C137_chain_energy",
    "Fierro.C137_chain_gap_fails"
   ],
   "note": "Exact arithmetic; without contact and fracture, number of stages not negative. Chains hold 3D hydrodynamics solvers only. The _fails theorems are defects of the code."
  },
  {
   "property": "C138",
   "status": "proved",
   "theorems": [
    "Fierro.C138_run",
    "Fierro.C138_defined",
    "Fierro.C138_progress",
    "Fierro.C138_dump_times",
    "Fierro.C138_masses",
    "Fierro.C138_printed",
    "Fierro.C138_energy",
    "Fierro.C138_momentum",
    "Fierro.C138_radius",
    "Fierro.C138_handover",
    "Fierro.C138_chain",
    "Fierro.C138_chain_energy",
    "Fierro.C138_handover_fails"
   ],
   "note": "Exact arithmetic; number of stages not negative. Chains hold axisymmetric solvers only. C138_handover_fails is a defect of the code."
  },
  {
   "property": "C139",
   "status": "proved",
   "theorems": [
    "Fierro.C139_run",
    "Fierro.C139_defined",
    "Fierro.C139_progress",
    "Fierro.C139_dump_times",
    "Fierro.C139_untouched",
    "Fierro.C139_speed",
    "Fierro.C139_sign"
   ],
   "note": "Exact arithmetic, hexahedral meshes, number of stages not negative. C139_speed and C139_sign assume bounds of the nodal Hamiltonians met, which exist for every run without velocity boundary conditions."
  },
  {
   "property": "C140",
   "status": "proved",
   "theorems": [
    "Fierro.C140_chain",
    "Fierro.C140_defined",
    "Fierro.C140_hydro_alone",
    "Fierro.C140_front_only",
    "Fierro.C140_energy",
    "Fierro.C140_times"
   ],
   "note": "Exact arithmetic. Chains hold 3D hydrodynamics (without contact and fracture) and level set solvers; thermal and axisymmetric solvers are chained in C123 and C138 only."
  },
  {
   "property": "C141",
   "status": "proved",
   "theorems": [
    "Fierro.C141_accepts",
    "Fierro.C141_incomplete",
    "Fierro.C141_faulty",
    "Fierro.C141_defined",
    "Fierro.C141_unambiguous",
    "Fierro.C141_words",
    "Fierro.C141_reader",
    "Fierro.C141_hdf5",
    "Fierro.C141_unit_word_fails",
    "Fierro.C141_type_word_fails",
    "Fierro.C141_missing_value_fails",
    "Fierro.C141_type_range_fails"
   ],
   "note": "getopt_long of the C library is modelled from its documented behaviour (permuting, with abbreviations). The words are those MPI and Kokkos leave. The four _fails theorems are weaknesses of the code."
  },
  {
   "property": "C142",
   "status": "proved",
   "theorems": [
    "Fierro.C142_run",
    "Fierro.C142_plain",
    "Fierro.C142_cycle",
    "Fierro.C142_momentum",
    "Fierro.C142_energy",
    "Fierro.C142_damage",
    "Fierro.C142_preload",
    "Fierro.C142_contact_stages",
    "Fierro.C142_openings",
    "Fierro.C142_pair_force",
    "Fierro.C142_contact_step",
    "Fierro.C142_energy_fails",
    "Fierro.C142_next_solver_fails"
   ],
   "note": "contact search, pair increment, release, crack normals and areas are arbitrary functions here (modelled in C78-C87); two counterexample runs: energy of the crack not in the tally, damage forgotten by the next solver"
  },
  {
   "property": "C143",
   "status": "proved",
   "theorems": [
    "Fierro.C143_chain",
    "Fierro.C143_shared",
    "Fierro.C143_alone",
    "Fierro.C143_seen",
    "Fierro.C143_thermal",
    "Fierro.C143_melt_stage",
    "Fierro.C143_melt",
    "Fierro.C143_mechanics_alone",
    "Fierro.C143_heat_untouched",
    "Fierro.C143_heat",
    "Fierro.C143_times",
    "Fierro.C143_energy",
    "Fierro.C143_melt_fails",
    "Fierro.C143_density_fails",
    "Fierro.C143_cool"
   ],
   "note": "the negations are C143_melt_fails and C143_density_fails; conditions for no melting: C143_cool"
  },
  {
   "property": "C144",
   "status": "proved",
   "theorems": [
    "Fierro.C144_nodes",
    "Fierro.C144_line",
    "Fierro.C144_derivative",
    "Fierro.C144_entries",
    "Fierro.C144_kronecker",
    "Fierro.C144_fields",
    "Fierro.C144_partition"
   ],
   "note": "exact arithmetic; positions of the nodes arbitrary"
  },
  {
   "property": "C145",
   "status": "proved",
   "theorems": [
    "Fierro.C145_legendre",
    "Fierro.C145_lobatto",
    "Fierro.C145_lobatto_one",
    "Fierro.C145_lobatto_twelve",
    "Fierro.C145_lobatto_twelve_fails",
    "Fierro.C145_legendre_points",
    "Fierro.C145_lobatto_points"
   ],
   "note": "the wrong digits of the rule with twelve points are C145_lobatto_twelve_fails; the bounds are for the decimal digits in the source, before rounding to double"
  },
  {
   "property": "C146",
   "status": "proved",
   "theorems": [
    "Fierro.C146_positions",
    "Fierro.C146_sums",
    "Fierro.C146_gauss_fields",
    "Fierro.C146_lobatto_fields",
    "Fierro.C146_node_map",
    "Fierro.C146_dual_map",
    "Fierro.C146_nodal",
    "Fierro.C146_gauss_product",
    "Fierro.C146_lobatto_product",
    "Fierro.C146_gauss_line",
    "Fierro.C146_lobatto_line",
    "Fierro.C146_order_zero_fails",
    "Fierro.C146_in_bounds",
    "Fierro.C146_high_order_fails"
   ],
   "note": "orders without an element: C146_order_zero_fails, C146_high_order_fails; three dimensions only, as in the code"
  },
  {
   "property": "C147",
   "status": "proved",
   "theorems": [
    "Fierro.C147_visits",
    "Fierro.C147_no_entries_fails",
    "Fierro.C147_ends_iff",
    "Fierro.C147_validate",
    "Fierro.C147_missing_block_fails",
    "Fierro.C147_text_block_fails",
    "Fierro.C147_list_block",
    "Fierro.C147_search",
    "Fierro.C147_search_empty_fails",
    "Fierro.C147_step"
   ],
   "note": "the negations are C147_no_entries_fails, C147_missing_block_fails, C147_text_block_fails, C147_search_empty_fails"
  },
  {
   "property": "C148",
   "status": "proved",
   "theorems": [
    "Fierro.C148_cylinder_accepted",
    "Fierro.C148_angle_fails",
    "Fierro.C148_cylinder_corner",
    "Fierro.C148_origin_twice_fails",
    "Fierro.C148_ring_closes",
    "Fierro.C148_axis_fails",
    "Fierro.C148_file_columns",
    "Fierro.C148_first_file",
    "Fierro.C148_second_file_fails",
    "Fierro.C148_linear_roundtrip",
    "Fierro.C148_linear_file",
    "Fierro.C148_read_high_order_fails",
    "Fierro.C148_read_direction_fails",
    "Fierro.C148_ensight_accepted",
    "Fierro.C148_ensight_name_fails",
    "Fierro.C148_ensight_geometry",
    "Fierro.C148_ensight_hexahedron",
    "Fierro.C148_ensight_quadrilateral",
    "Fierro.C148_ensight_values",
    "Fierro.C148_ensight_case",
    "Fierro.C148_box_accepted",
    "Fierro.C148_four_values_fails",
    "Fierro.C148_box_refused",
    "Fierro.C148_box_corner",
    "Fierro.C148_box_conforming",
    "Fierro.C148_box_points",
    "Fierro.C148_type"
   ],
   "note": "exact arithmetic; an angle within 1e-8 of 360 degrees but not equal to it is left out of C148_cylinder_corner; the negations are C148_angle_fails, C148_origin_twice_fails, C148_axis_fails, C148_second_file_fails, C148_read_high_order_fails, C148_ensight_name_fails"
  },
  {
   "property": "C149",
   "status": "proved",
   "theorems": [
    "Fierro.C149_extent",
    "Fierro.C149_extent_schedule",
    "Fierro.C149_extent_lower",
    "Fierro.C149_rays",
    "Fierro.C149_ray_centre",
    "Fierro.C149_hits",
    "Fierro.C149_preselection",
    "Fierro.C149_height",
    "Fierro.C149_unique",
    "Fierro.C149_sorted",
    "Fierro.C149_marks",
    "Fierro.C149_odd",
    "Fierro.C149_ray",
    "Fierro.C149_repair_count",
    "Fierro.C149_repair",
    "Fierro.C149_repair_order_fails",
    "Fierro.C149_vote",
    "Fierro.C149_file",
    "Fierro.C149_extent_fails",
    "Fierro.C149_edge_fails",
    "Fierro.C149_tip_fails",
    "Fierro.C149_flag_fails",
    "Fierro.C149_moved_fails"
   ],
   "note": "exact arithmetic with IEEE results of divisions by zero; reading the binary file is not modelled; the negations are C149_extent_fails, C149_edge_fails, C149_tip_fails, C149_flag_fails, C149_moved_fails, C149_repair_order_fails"
  },
  {
   "property": "C150",
   "status": "proved",
   "theorems": [
    "Fierro.C150_strict_same",
    "Fierro.C150_scalar_steady",
    "Fierro.C150_enum_steady",
    "Fierro.C150_option_steady",
    "Fierro.C150_list_steady",
    "Fierro.C150_struct_steady",
    "Fierro.C150_fields_loaded",
    "Fierro.C150_failures",
    "Fierro.C150_struct_returns",
    "Fierro.C150_check",
    "Fierro.C150_check_paths",
    "Fierro.C150_strict_refuses",
    "Fierro.C150_unknown_field",
    "Fierro.C150_unknown_nested",
    "Fierro.C150_two_objects",
    "Fierro.C150_base_class",
    "Fierro.C150_post_processing",
    "Fierro.C150_scalar_returns",
    "Fierro.C150_bool_returns",
    "Fierro.C150_enum_returns",
    "Fierro.C150_option_returns",
    "Fierro.C150_list_returns",
    "Fierro.C150_array_returns",
    "Fierro.C150_set_returns",
    "Fierro.C150_set_elements",
    "Fierro.C150_bracket_list",
    "Fierro.C150_not_a_list",
    "Fierro.C150_empty_brackets_fails",
    "Fierro.C150_blank_after_comma_fails",
    "Fierro.C150_items_loaded",
    "Fierro.C150_unknown_in_list",
    "Fierro.C150_empty_unknown_fails",
    "Fierro.C150_text_for_struct_fails",
    "Fierro.C150_set_twice_fails",
    "Fierro.C150_register",
    "Fierro.C150_derived",
    "Fierro.C150_derived_returns",
    "Fierro.C150_true_texts",
    "Fierro.C150_empty_keeps"
   ],
   "note": "nodes as in C38; what a number conversion yields for other texts is a parameter; exceptions carry their data, not the wording; the round trip is by type constructor; the negations are C150_empty_unknown_fails, C150_text_for_struct_fails, C150_set_twice_fails, C150_blank_after_comma_fails, C150_empty_brackets_fails"
  },
  {
   "property": "C151",
   "status": "proved",
   "theorems": [
    "Fierro.C151_read",
    "Fierro.C151_last_attributes",
    "Fierro.C151_short_file",
    "Fierro.C151_cut_file_fails",
    "Fierro.C151_determined",
    "Fierro.C151_unopened_fails",
    "Fierro.C151_text_fails"
   ],
   "note": "floats are kept as their four bytes; numbers least significant byte first; the negations are C151_cut_file_fails, C151_unopened_fails, C151_text_fails"
  },
  {
   "property": "C152",
   "status": "proved",
   "theorems": [
    "Fierro.C152_sweep",
    "Fierro.C152_sweep_entry",
    "Fierro.C152_cycle_limit_fails",
    "Fierro.C152_forward",
    "Fierro.C152_sweep_kept",
    "Fierro.C152_level_kept",
    "Fierro.C152_no_checkpoints_fails"
   ],
   "note": "one cycle of the solver is a function of the cycle and of what a checkpoint keeps; iterators are steps; the negations are C152_cycle_limit_fails, C152_no_checkpoints_fails"
  },
  {
   "property": "C153",
   "status": "proved",
   "theorems": [
    "Fierro.C153_order",
    "Fierro.C153_same",
    "Fierro.C153_equal",
    "Fierro.C153_boundary",
    "Fierro.C153_boundary_order",
    "Fierro.C153_index",
    "Fierro.C153_unknown_patch_fails"
   ],
   "note": "surfaces are given as the lists of their nodes; std::set and std::map are lists searched by the order; the negation is C153_unknown_patch_fails"
  },
  {
   "property": "C154",
   "status": "proved",
   "theorems": [
    "Fierro.C154_box",
    "Fierro.C154_cylinder",
    "Fierro.C154_sphere",
    "Fierro.C154_stl",
    "Fierro.C154_outside",
    "Fierro.C154_last_face_fails",
    "Fierro.C154_vtk",
    "Fierro.C154_vtk_lower_half_fails",
    "Fierro.C154_region_accepted",
    "Fierro.C154_region_energy",
    "Fierro.C154_region_again",
    "Fierro.C154_negative_radius_fails",
    "Fierro.C154_radii"
   ],
   "note": "numbers are reals, the voxels and their sizes are given; the negations are C154_last_face_fails, C154_vtk_lower_half_fails, C154_negative_radius_fails"
  },
  {
   "property": "C155",
   "status": "proved",
   "theorems": [
    "Fierro.C155_update",
    "Fierro.C155_gradient_at",
    "Fierro.C155_value_at_fails",
    "Fierro.C155_gradient",
    "Fierro.C155_hessian",
    "Fierro.C155_convex",
    "Fierro.C155_inverse",
    "Fierro.C155_inverse_fails"
   ],
   "note": "numbers are reals; the elementwise functions of ROL, which is not in the repository, are assumptions of the model; the negations are C155_value_at_fails, C155_inverse_fails"
  },
  {
   "property": "C156",
   "status": "proved",
   "theorems": [
    "Fierro.C156_inertial",
    "Fierro.C156_owner",
    "Fierro.C156_multi_fails",
    "Fierro.C156_component_fails",
    "Fierro.C156_entries",
    "Fierro.C156_kinetic",
    "Fierro.C156_accepted"
   ],
   "note": "values of constraints are of any type, an exception is a missing result; the negations are C156_multi_fails, C156_component_fails"
  },
  {
   "property": "C157",
   "status": "proved",
   "theorems": [
    "Fierro.C157_planes",
    "Fierro.C157_curved_fails",
    "Fierro.C157_two_dimensions_fails",
    "Fierro.C157_refused",
    "Fierro.C157_scaled",
    "Fierro.C157_limits_scale_fails"
   ],
   "note": "numbers are reals, a read past the coordinates is a missing result; the negations are C157_curved_fails, C157_two_dimensions_fails, C157_limits_scale_fails"
  }
 ]
}