# Axioms of the claimed theorems

Generated by tools/gen_axioms.py from `#print axioms`. `propext`, `Classical.choice` and `Quot.sound` are the three standard axioms of Lean.

| property | theorem | axioms |
|---|---|---|
| C01 | `Trento.C01_fastExp_accurate` | Classical.choice, Quot.sound, propext |
| C01 | `Trento.C01_fastExp_exact_at_points` | Classical.choice, Quot.sound, propext |
| C02 | `Trento.C02_fastExp_debug_throws` | Classical.choice, Quot.sound, propext |
| C02 | `Trento.C02_fastExp_release_never_throws` | Classical.choice, Quot.sound, propext |
| C02 | `Trento.C02_fastExp_release_ub` | Classical.choice, Quot.sound, propext |
| C03 | `Trento.C03_thickness` | Classical.choice, Quot.sound, propext |
| C03 | `Trento.C03_error_small` | Classical.choice, Quot.sound, propext |
| C04 | `Trento.C04_boundary` | Classical.choice, Quot.sound, propext |
| C04 | `Trento.C04_thickness_zero_outside` | Classical.choice, Quot.sound, propext |
| C04 | `Trento.C04_boundary_ub` | none |
| C05 | `Trento.C05_participate_flags` | Classical.choice, Quot.sound, propext |
| C06 | `Trento.C06_out_of_range` | Classical.choice, Quot.sound, propext |
| C06 | `Trento.C06_out_of_range_ncoll` | Classical.choice, Quot.sound, propext |
| C07 | `Trento.C07_participate_iff` | Classical.choice, Quot.sound, propext |
| C07 | `Trento.C07_probability` | Classical.choice, Quot.sound, propext |
| C08 | `Trento.C08_recentred` | Classical.choice, Quot.sound, propext |
| C08 | `Trento.C08_sampled_once` | Classical.choice, Quot.sound, propext |
| C09 | `Trento.C09_sampling_width` | Classical.choice, Quot.sound, propext |
| C09 | `Trento.C09_sampling_width_zero` | Classical.choice, Quot.sound, propext |
| C09 | `Trento.C09_variance` | Classical.choice, Quot.sound, propext |
| C20 | `Trento.C20_grid_geometry` | Classical.choice, Quot.sound, propext |
| C20 | `Trento.C20_grid_exists` | Classical.choice, Quot.sound, propext |
| C21 | `Trento.C21_thickness_is_direct_sum` | Classical.choice, Quot.sound, propext |
| C21 | `Trento.C21_thickness_nonneg` | Classical.choice, Quot.sound, propext |
| C22 | `Trento.C22_deposition_in_bounds` | Classical.choice, Quot.sound, propext |
| C22 | `Trento.C22_every_arithmetic` | Classical.choice, Quot.sound, propext |
| C22 | `Trento.C22_zero_grid_ub` | Classical.choice, Quot.sound, propext |
| C23 | `Trento.C23_npart` | Classical.choice, Quot.sound, propext |
| C24 | `Trento.C24_history_independent` | Classical.choice, Quot.sound, propext |
| C25 | `Trento.C25_reduced_thickness` | Classical.choice, Quot.sound, propext |
| C25 | `Trento.C25_trentoMean_eq` | Classical.choice, Quot.sound, propext |
| C25 | `Trento.C25_equal` | Classical.choice, Quot.sound, propext |
| C25 | `Trento.C25_between` | Classical.choice, Quot.sound, propext |
| C25 | `Trento.C25_vanishes` | Classical.choice, Quot.sound, propext |
| C26 | `Trento.C26_monotone` | Classical.choice, Quot.sound, propext |
| C26 | `Trento.C26_event_monotone` | Classical.choice, Quot.sound, propext |
| C26 | `Trento.C26_continuous_at_zero` | Classical.choice, Quot.sound, propext |
| C26 | `Trento.C26_switch_is_small` | Classical.choice, Quot.sound, propext |
| C27 | `Trento.C27_multiplicity` | Classical.choice, Quot.sound, propext |
| C27 | `Trento.C27_nonneg` | Classical.choice, Quot.sound, propext |
| C27 | `Trento.C27_linear_in_norm` | Classical.choice, Quot.sound, propext |
| C28 | `Trento.C28_eccentricities` | Classical.choice, Quot.sound, propext |
| C29 | `Trento.C29_eccentricity_range` | Classical.choice, Quot.sound, propext |
| C30 | `Trento.C30_grid_mirror_x` | Classical.choice, Quot.sound, propext |
| C30 | `Trento.C30_grid_mirror_y` | Classical.choice, Quot.sound, propext |
| C30 | `Trento.C30_grid_swap` | Classical.choice, Quot.sound, propext |
| C30 | `Trento.C30_no_cancellation` | Classical.choice, Quot.sound, propext |
| C30 | `Trento.C30_event_symmetry` | Classical.choice, Quot.sound, propext |
| C31 | `Trento.C31_exchange` | Classical.choice, Quot.sound, propext |
| C11 | `Trento.C11_documented_species` | Classical.choice, Quot.sound, propext |
| C11 | `Trento.C11_other_strings` | Classical.choice, Quot.sound, propext |
| C11 | `Trento.C11_deformed_pairs` | Classical.choice, Quot.sound, propext |
| C12 | `Trento.C12_sampling_resets` | Classical.choice, Quot.sound, propext |
| C12 | `Trento.C12_size_constant` | Classical.choice, Quot.sound, propext |
| C13 | `Trento.C13_offset_is_translation` | Classical.choice, Quot.sound, propext |
| C14 | `Trento.C14_woods_saxon_radii` | Classical.choice, Quot.sound, propext |
| C14 | `Trento.C14_C16_deformed` | Classical.choice, Quot.sound, propext |
| C15 | `Trento.C15_placement_spherical` | Classical.choice, Quot.sound, propext |
| C15 | `Trento.C15_placement_deformed` | Classical.choice, Quot.sound, propext |
| C15 | `Trento.C15_minimum_distance` | Classical.choice, Quot.sound, propext |
| C15 | `Trento.C15_all_pairs` | Classical.choice, Quot.sound, propext |
| C15 | `Trento.C15_inactive` | Classical.choice, Quot.sound, propext |
| C16 | `Trento.C16_tilt_spin` | Classical.choice, Quot.sound, propext |
| C16 | `Trento.C16_euler` | Classical.choice, Quot.sound, propext |
| C16 | `Trento.drawTiltSpin_rotation` | Classical.choice, Quot.sound, propext |
| C16 | `Trento.drawEuler_rotation` | Classical.choice, Quot.sound, propext |
| C16 | `Trento.rotation_preserves_distance` | Classical.choice, Quot.sound, propext |
| C16 | `Trento.C16_manual_rigid` | Classical.choice, Quot.sound, propext |
| C16 | `Trento.C16_manual_total` | Classical.choice, Quot.sound, propext |
| C16 | `Trento.C14_C16_deformed` | Classical.choice, Quot.sound, propext |
| C17 | `Trento.C17_rejection_loop` | Classical.choice, Quot.sound, propext |
| C17 | `Trento.C17_antipodal` | Classical.choice, Quot.sound, propext |
| C17 | `Trento.C17_exchange` | Classical.choice, Quot.sound, propext |
| C17 | `Trento.C17_probability_range` | Classical.choice, Quot.sound, propext |
| C17 | `Trento.C17_radius_le` | Classical.choice, Quot.sound, propext |
| C17 | `Trento.C17_acceptance_measure` | Classical.choice, Quot.sound, propext |
| C17 | `Trento.C17_hulthen_distribution` | Classical.choice, Quot.sound, propext |
| C17 | `Trento.C17_radius_quantile` | Classical.choice, Quot.sound, propext |
| C19 | `Trento.C19_manual_validation` | Classical.choice, Quot.sound, propext |
| C19 | `Trento.C19_rank_overflow` | Quot.sound, propext |
| C19 | `Trento.C19_zero_nucleons` | Classical.choice, Quot.sound, propext |
| C19 | `Trento.C19_manual_radius` | Classical.choice, Quot.sound, propext |
| C59 | `Trento.C59_filename_is_hdf5` | Classical.choice, Quot.sound, propext |
| C33 | `Trento.C33_impact_range` | Classical.choice, Quot.sound, propext |
| C33 | `Trento.C33_impact_distribution` | Classical.choice, Quot.sound, propext |
| C33 | `Trento.C33_events_in_range` | Classical.choice, Quot.sound, propext |
| C34 | `Trento.C34_offsets` | Classical.choice, Quot.sound, propext |
| C34 | `Trento.C34_radius_nonneg` | Classical.choice, Quot.sound, propext |
| C35 | `Trento.C35_bmax` | Classical.choice, Quot.sound, propext |
| C35 | `Trento.C35_radius` | Classical.choice, Quot.sound, propext |
| C35 | `Trento.C35_beyond_bmax_nothing` | Classical.choice, Quot.sound, propext |
| C36 | `Trento.C36_every_event_collides` | Classical.choice, Quot.sound, propext |
| C36 | `Trento.C36_inRange_iff` | Classical.choice, Quot.sound, propext |
| C37 | `Trento.C37_ncoll_bounds` | Classical.choice, Quot.sound, propext |
| C37 | `Trento.C37_ncoll_counts_hits` | Classical.choice, Quot.sound, propext |
| C38 | `Trento.C38_seeded_runs_reproducible` | Classical.choice, Quot.sound, propext |
| C39 | `Trento.C39_attempt_fails` | Classical.choice, Quot.sound, propext |
| C39 | `Trento.C39_pp_never_returns` | Classical.choice, Quot.sound, propext |
| C60 | `Trento.C60_participants` | Classical.choice, Quot.sound, propext |
| C60 | `Trento.C60_ncoll_does_not_change_participants` | Classical.choice, Quot.sound, propext |
| C61 | `Trento.C61_sampling_no_ub` | Classical.choice, Quot.sound, propext |
| C61 | `Trento.C61_no_undefined_behaviour` | Classical.choice, Quot.sound, propext |
| C61 | `Trento.C61_writing` | Classical.choice, Quot.sound, propext |
| C61 | `Trento.C61_program` | Classical.choice, Quot.sound, propext |
| C62 | `Trento.C62_out_of_reach_never_returns` | Classical.choice, Quot.sound, propext |
| C62 | `Trento.C62_reach_of_species` | Classical.choice, Quot.sound, propext |
| C62 | `Trento.C62_extents` | Classical.choice, Quot.sound, propext |
| C63 | `Trento.C63_outcome_unique` | Classical.choice, Quot.sound, propext |
| C40 | `Trento.C40_records_in_order` | Classical.choice, Quot.sound, propext |
| C40 | `Trento.C40_each_event_once` | Classical.choice, Quot.sound, propext |
| C41 | `Trento.C41_width` | Classical.choice, Quot.sound, propext |
| C41 | `Trento.C41_file_names` | Classical.choice, Quot.sound, propext |
| C42 | `Trento.C42_line` | Classical.choice, Quot.sound, propext |
| C42 | `Trento.C42_columns_merge` | Classical.choice, Quot.sound, propext |
| C42 | `Trento.C42_documented_run` | Classical.choice, Quot.sound, propext |
| C43 | `Trento.C43_read_back` | Classical.choice, Quot.sound, propext |
| C44 | `Trento.C44_no_overwrite` | Classical.choice, Quot.sound, propext |
| C44 | `Trento.C44_refuses` | Classical.choice, Quot.sound, propext |
| C45 | `Trento.C45_text_files` | Classical.choice, Quot.sound, propext |
| C45 | `Trento.C45_empty_file_swallows` | Classical.choice, Quot.sound, propext |
| C46 | `Trento.C46_ncoll_entries` | Classical.choice, Quot.sound, propext |
| C47 | `Trento.C47_text_grid` | Classical.choice, Quot.sound, propext |
| C47 | `Trento.C47_single_cell_ub` | Classical.choice, Quot.sound, propext |
| C48 | `Trento.C48_no_header` | Classical.choice, Quot.sound, propext |
| C48 | `Trento.C48_precision_differs` | Classical.choice, Quot.sound, propext |
| C49 | `Trento.C49_hdf5_file` | Classical.choice, Quot.sound, propext |
| C49 | `Trento.C49_hdf5_dataset` | Classical.choice, Quot.sound, propext |
| C50 | `Trento.C50_location` | Quot.sound, propext |
| C50 | `Trento.C50_lookup` | Classical.choice, Quot.sound, propext |
| C50 | `Trento.C50_first_run` | Classical.choice, Quot.sound, propext |
| C51 | `Trento.C51_stable` | Classical.choice, Quot.sound, propext |
| C52 | `Trento.C52_crash` | Classical.choice, Quot.sound, propext |
| C52 | `Trento.C52_empty_cache_ub` | Classical.choice, Quot.sound, propext |
| C52 | `Trento.C52_torn_write` | Classical.choice, Quot.sound, propext |
| C52 | `Trento.C52_torn_value` | Classical.choice, Quot.sound, propext |
| C53 | `Trento.C53_search_ends` | Classical.choice, Quot.sound, propext |
| C53 | `Trento.C53_well_formed` | Classical.choice, Quot.sound, propext |
| C53 | `Trento.C53_empty_file_ub` | Classical.choice, Quot.sound, propext |
| C53 | `Trento.C53_garbage_never_ends` | Classical.choice, Quot.sound, propext |
| C53 | `Trento.C53_separators` | Classical.choice, Quot.sound, propext |
| C53 | `Trento.C53_integer_ends` | Classical.choice, Quot.sound, propext |
| C54 | `Trento.C54_estimate` | Classical.choice, Quot.sound, propext |
| C54 | `Trento.C54_outcome` | Classical.choice, Quot.sound, propext |
| C54 | `Trento.C54_biased` | Classical.choice, Quot.sound, propext |
| C54 | `Trento.C54_negative` | Classical.choice, Quot.sound, propext |
| C55 | `Trento.C55_values` | Classical.choice, Quot.sound, propext |
| C55 | `Trento.C55_pass` | Classical.choice, Quot.sound, propext |
| C55 | `Trento.C55_quantiles` | Classical.choice, Quot.sound, propext |
| C55 | `Trento.C55_pass_mean` | Classical.choice, Quot.sound, propext |
| C55 | `Trento.C55_repeats` | Classical.choice, Quot.sound, propext |
| C10 | `Trento.C10_root_iff` | Classical.choice, Quot.sound, propext |
| C10 | `Trento.C10_strictly_increasing` | Classical.choice, Quot.sound, propext |
| C10 | `Trento.C10_fit` | Classical.choice, Quot.sound, propext |
| C32 | `Trento.C32_event` | Classical.choice, Quot.sound, propext |
| C32 | `Trento.C32_zero_eccentricities` | Classical.choice, Quot.sound, propext |
| C32 | `Trento.C32_no_overlap` | Classical.choice, Quot.sound, propext |
| C32 | `Trento.C32_centre_is_nan` | Classical.choice, Quot.sound, propext |
| C56 | `Trento.C56_precedence` | Classical.choice, Quot.sound, propext |
| C56 | `Trento.C56_defaults` | Classical.choice, Quot.sound, propext |
| C56 | `Trento.C56_values` | Classical.choice, Quot.sound, propext |
| C57 | `Trento.C57_validation` | Classical.choice, Quot.sound, propext |
| C57 | `Trento.C57_validation_any` | Classical.choice, Quot.sound, propext |
| C57 | `Trento.C57_check_iff` | Classical.choice, Quot.sound, propext |
| C58 | `Trento.C58_information` | Classical.choice, Quot.sound, propext |
| C58 | `Trento.C58_texts` | Classical.choice, Quot.sound, propext |
| C58 | `Trento.C58_rejected` | Classical.choice, Quot.sound, propext |
| C58 | `Trento.C58_projectiles` | Classical.choice, Quot.sound, propext |
| C58 | `Trento.C58_config_files` | Classical.choice, Quot.sound, propext |
| C58 | `Trento.C58_widths` | Classical.choice, Quot.sound, propext |
| C58 | `Trento.C58_exceptions` | Classical.choice, Quot.sound, propext |
| C58 | `Trento.C58_failed_run` | Classical.choice, Quot.sound, propext |
| C58 | `Trento.C58_output_failure` | Classical.choice, Quot.sound, propext |
| C58 | `Trento.C58_hdf5_directory_terminates` | Classical.choice, Quot.sound, propext |
| C64 | `Trento.C64_successful_run` | Classical.choice, Quot.sound, propext |
| C64 | `Trento.C64_completes` | Classical.choice, Quot.sound, propext |
| C65 | `Trento.C65_program_only_adds` | Classical.choice, Quot.sound, propext |
| C66 | `Trento.C66_seeded_program` | Classical.choice, Quot.sound, propext |
| C66 | `Trento.C66_cache_answers` | Classical.choice, Quot.sound, propext |
| C67 | `Trento.C67_stdout` | Classical.choice, Quot.sound, propext |
| C68 | `Trento.C68_text_files` | Classical.choice, Quot.sound, propext |
| C68 | `Trento.C68_hdf5_file` | Classical.choice, Quot.sound, propext |
| C69 | `Trento.C69_draws` | Classical.choice, Quot.sound, propext |
| C69 | `Trento.C69_unit_mean` | Classical.choice, Quot.sound, propext |
| C70 | `Trento.C70_spherical` | Classical.choice, Quot.sound, propext |
| C70 | `Trento.C70_deformed` | Classical.choice, Quot.sound, propext |
| C70 | `Trento.C70_acceptance_measure` | Classical.choice, Quot.sound, propext |
| C70 | `Trento.C70_proposal_le` | Classical.choice, Quot.sound, propext |
| C70 | `Trento.C70_deformed_distribution` | Classical.choice, Quot.sound, propext |
| C70 | `Trento.C70_reflection` | Classical.choice, Quot.sound, propext |
| C70 | `Trento.C70_cutoff` | Classical.choice, Quot.sound, propext |
| C18 | `Trento.C18_finite_positions` | Classical.choice, Quot.sound, propext |
| C18 | `Trento.C18_deuteron` | Classical.choice, Quot.sound, propext |
| C18 | `Trento.C18_zero_is_accepted` | Classical.choice, Quot.sound, propext |
| C71 | `Trento.C71_no_special_values` | Classical.choice, Quot.sound, propext |
| C71 | `Trento.C71_records_finite` | Classical.choice, Quot.sound, propext |
| C72 | `Trento.C72_zero_constituents` | Classical.choice, Quot.sound, propext |
| C73 | `Trento.C73_concurrent_cache` | Classical.choice, Quot.sound, propext |
| C73 | `Trento.C73_afterwards` | Classical.choice, Quot.sound, propext |
| C73 | `Trento.C73_first_runs_ub` | Classical.choice, Quot.sound, propext |
| C73 | `Trento.steps_alone` | Classical.choice, Quot.sound, propext |
| C74 | `Trento.C74_separate_outputs` | Classical.choice, Quot.sound, propext |
| C74 | `Trento.C74_alone` | Classical.choice, Quot.sound, propext |
| C74 | `Trento.C74_same_directory` | Classical.choice, Quot.sound, propext |
| C75 | `Trento.C75_samples` | Classical.choice, Quot.sound, propext |
| C75 | `Trento.C75_stratified` | Classical.choice, Quot.sound, propext |
| C75 | `Trento.C75_fit` | Classical.choice, Quot.sound, propext |
| C75 | `Trento.C75_single` | Classical.choice, Quot.sound, propext |
| C76 | `Trento.C76_thickness` | Classical.choice, Quot.sound, propext |
| C76 | `Trento.cutThickness_ideal` | Classical.choice, Quot.sound, propext |
| C77 | `Trento.C77_nonnegative` | Classical.choice, Quot.sound, propext |
| C78 | `Trento.C78_no_undefined_behaviour_rounded` | Classical.choice, Quot.sound, propext |
| C78 | `Trento.C78_documented_species` | Classical.choice, Quot.sound, propext |
| C79 | `Trento.C79_observables_accurate` | Classical.choice, Quot.sound, propext |
| C79 | `Trento.C79_eccentricity_range` | Classical.choice, Quot.sound, propext |
| C80 | `Trento.C80_thickness_grids` | Classical.choice, Quot.sound, propext |
| C80 | `Trento.example_grid_fl` | Classical.choice, Quot.sound, propext |
| C81 | `Trento.C81_reduced_thickness` | Classical.choice, Quot.sound, propext |
| C81 | `Trento.reduced_fl` | Classical.choice, Quot.sound, propext |
| C82 | `Trento.C82_collisions` | Classical.choice, Quot.sound, propext |
| C83 | `Trento.C83_participation` | Classical.choice, Quot.sound, propext |
| C84 | `Trento.C84_every_record` | Classical.choice, Quot.sound, propext |
| C85 | `Trento.C85_isotropic` | Classical.choice, Quot.sound, propext |
| C86 | `Trento.C86_tail` | Classical.choice, Quot.sound, propext |
| C86 | `Trento.C86_almost_surely` | Classical.choice, Quot.sound, propext |
| C86 | `Trento.C86_documented` | Classical.choice, Quot.sound, propext |
| C87 | `Trento.C87_deuteron` | Classical.choice, Quot.sound, propext |
| C87 | `Trento.C87_deuteron_opposite` | Classical.choice, Quot.sound, propext |
| C87 | `Trento.C87_spherical` | Classical.choice, Quot.sound, propext |
| C87 | `Trento.C87_deformed` | Classical.choice, Quot.sound, propext |
| C87 | `Trento.C87_normalisable` | Classical.choice, Quot.sound, propext |
| C87 | `Trento.C87_normalisable_deformed` | Classical.choice, Quot.sound, propext |
| C88 | `Trento.C88_collision` | Classical.choice, Quot.sound, propext |
| C88 | `Trento.C88_run` | Classical.choice, Quot.sound, propext |
| C88 | `Trento.C88_continue` | Classical.choice, Quot.sound, propext |
| C89 | `Trento.C89_unbiased` | Classical.choice, Quot.sound, propext |
| C89 | `Trento.C89_attempts` | Classical.choice, Quot.sound, propext |
| C89 | `Trento.C89_terminates` | Classical.choice, Quot.sound, propext |
| C90 | `Trento.C90_impact_mixture` | Classical.choice, Quot.sound, propext |
| C90 | `Trento.C90_cross_section` | Classical.choice, Quot.sound, propext |
| C91 | `Trento.C91_at` | Classical.choice, Quot.sound, propext |
| C91 | `Trento.C91_cross_section` | Classical.choice, Quot.sound, propext |
| C91 | `Trento.C91_options` | Classical.choice, Quot.sound, propext |
| C91 | `Trento.C91_terminates` | Classical.choice, Quot.sound, propext |
| C92 | `Trento.C92_law` | Classical.choice, Quot.sound, propext |
| C92 | `Trento.C92_independent` | Classical.choice, Quot.sound, propext |
| C92 | `Trento.C92_each` | Classical.choice, Quot.sound, propext |
| C92 | `Trento.C92_attempts` | Classical.choice, Quot.sound, propext |
| C92 | `Trento.C92_joint` | Classical.choice, Quot.sound, propext |
| C93 | `Trento.C93_standard_error` | Classical.choice, Quot.sound, propext |
| C94 | `Trento.C94_collision` | Classical.choice, Quot.sound, propext |
| C94 | `Trento.C94_events` | Classical.choice, Quot.sound, propext |
| C94 | `Trento.C94_run` | Classical.choice, Quot.sound, propext |
| C94 | `Trento.C94_species` | Classical.choice, Quot.sound, propext |
| C94 | `Trento.example_terminates` | Classical.choice, Quot.sound, propext |
| C95 | `Trento.C95_contract` | Classical.choice, Quot.sound, propext |
| C95 | `Trento.C95_twister` | Classical.choice, Quot.sound, propext |
| C95 | `Trento.C95_zero` | Classical.choice, Quot.sound, propext |
| C95 | `Trento.C95_normal` | Classical.choice, Quot.sound, propext |
| C95 | `Trento.C95_positions` | Classical.choice, Quot.sound, propext |
| C95 | `Trento.C95_erase` | Classical.choice, Quot.sound, propext |
| C95 | `Trento.C95_run` | Classical.choice, Quot.sound, propext |
| C95 | `Trento.C95_exact` | Classical.choice, Quot.sound, propext |
| C95 | `Trento.C95_rounded` | Classical.choice, Quot.sound, propext |
| C96 | `Trento.C96_seeds` | Classical.choice, Quot.sound, propext |
| C96 | `Trento.C96_alive` | Classical.choice, Quot.sound, propext |
| C96 | `Trento.C96_temper` | Classical.choice, Quot.sound, propext |
| C97 | `Trento.C97_independent` | Classical.choice, Quot.sound, propext |
| C97 | `Trento.C97_each` | Classical.choice, Quot.sound, propext |
| C97 | `Trento.C97_fresh` | Classical.choice, Quot.sound, propext |
| C97 | `Trento.C97_ideal` | Classical.choice, Quot.sound, propext |
| C97 | `Trento.C97_spherical` | Classical.choice, Quot.sound, propext |
| C97 | `Trento.C97_events` | Classical.choice, Quot.sound, propext |
| C97 | `Trento.C97_proton_proton` | Classical.choice, Quot.sound, propext |
| C98 | `Trento.C98_constituent` | Classical.choice, Quot.sound, propext |
| C98 | `Trento.C98_weights` | Classical.choice, Quot.sound, propext |
| C98 | `Trento.C98_moments` | Classical.choice, Quot.sound, propext |
| C98 | `Trento.C98_thickness` | Classical.choice, Quot.sound, propext |
| C99 | `Trento.C99_shuffle` | Classical.choice, Quot.sound, propext |
| C99 | `Trento.C99_orders` | Classical.choice, Quot.sound, propext |
| C99 | `Trento.C99_sampler` | Classical.choice, Quot.sound, propext |
| C100 | `Trento.C100_collision` | Classical.choice, Quot.sound, propext |
| C100 | `Trento.C100_event` | Classical.choice, Quot.sound, propext |
| C100 | `Trento.C100_run` | Classical.choice, Quot.sound, propext |
| C100 | `Trento.C100_mean` | Classical.choice, Quot.sound, propext |
| C100 | `Trento.C100_library` | Classical.choice, Quot.sound, propext |
| C101 | `Trento.C101_collision` | Classical.choice, Quot.sound, propext |
| C101 | `Trento.C101_event` | Classical.choice, Quot.sound, propext |
| C101 | `Trento.C101_run` | Classical.choice, Quot.sound, propext |
| C101 | `Trento.C101_mean` | Classical.choice, Quot.sound, propext |
| C101 | `Trento.C101_identical` | Classical.choice, Quot.sound, propext |
| C102 | `Trento.C102_pairs` | Classical.choice, Quot.sound, propext |
| C102 | `Trento.C102_glauber` | Classical.choice, Quot.sound, propext |
| C102 | `Trento.C102_total` | Classical.choice, Quot.sound, propext |
| C102 | `Trento.C102_bound` | Classical.choice, Quot.sound, propext |
| C102 | `Trento.C102_protons` | Classical.choice, Quot.sound, propext |
| C102 | `Trento.C102_scaling` | Classical.choice, Quot.sound, propext |
| C102 | `Trento.C102_events` | Classical.choice, Quot.sound, propext |
| C102 | `Trento.C102_sampled` | Classical.choice, Quot.sound, propext |
| C102 | `Trento.C102_options` | Classical.choice, Quot.sound, propext |
| C102 | `Trento.C102_isotropic` | Classical.choice, Quot.sound, propext |
| C102 | `Trento.C102_library` | Classical.choice, Quot.sound, propext |
| C103 | `Trento.C103_root_finder` | Classical.choice, Quot.sound, propext |
| C103 | `Trento.C103_fit` | Classical.choice, Quot.sound, propext |
| C103 | `Trento.C103_reproduces` | Classical.choice, Quot.sound, propext |
| C103 | `Trento.C103_fails` | Classical.choice, Quot.sound, propext |
| C103 | `Trento.C103_proton_proton` | Classical.choice, Quot.sound, propext |
| C103 | `Trento.C103_monte_carlo` | Classical.choice, Quot.sound, propext |
| C103 | `Trento.boostToms_lawful` | Classical.choice, Quot.sound, propext |
| C103 | `Trento.boostToms_bracketing` | Classical.choice, Quot.sound, propext |
| C103 | `Trento.boostToms_safe` | Classical.choice, Quot.sound, propext |
| C104 | `Trento.C104_positions` | Classical.choice, Quot.sound, propext |
| C104 | `Trento.C104_point` | Classical.choice, Quot.sound, propext |
| C104 | `Trento.C104_wounded` | Classical.choice, Quot.sound, propext |
| C104 | `Trento.C104_point_nuclei` | Classical.choice, Quot.sound, propext |
| C104 | `Trento.C104_collision` | Classical.choice, Quot.sound, propext |
| C104 | `Trento.C104_cross_section` | Classical.choice, Quot.sound, propext |
| C104 | `Trento.C104_npart` | Classical.choice, Quot.sound, propext |
| C104 | `Trento.C104_monotone` | Classical.choice, Quot.sound, propext |
| C105 | `Trento.C105_weight` | Classical.choice, Quot.sound, propext |
| C105 | `Trento.C105_positions` | Classical.choice, Quot.sound, propext |
| C105 | `Trento.C105_mean` | Classical.choice, Quot.sound, propext |
| C105 | `Trento.C105_counts` | Classical.choice, Quot.sound, propext |
| C105 | `Trento.C105_events` | Classical.choice, Quot.sound, propext |
| C106 | `Trento.C106_variance` | Classical.choice, Quot.sound, propext |
| C106 | `Trento.C106_probability` | Classical.choice, Quot.sound, propext |
| C106 | `Trento.C106_events` | Classical.choice, Quot.sound, propext |
| C106 | `Trento.C106_limit` | Classical.choice, Quot.sound, propext |
| C107 | `Trento.C107_spellings` | Classical.choice, Quot.sound, propext |
| C107 | `Trento.C107_groups` | Classical.choice, Quot.sound, propext |
| C107 | `Trento.C107_results` | Classical.choice, Quot.sound, propext |
| C107 | `Trento.C107_mistakes` | Classical.choice, Quot.sound, propext |
| C107 | `Trento.C107_order` | Classical.choice, Quot.sound, propext |
| C108 | `Trento.C108_syntax` | Classical.choice, Quot.sound, propext |
| C108 | `Trento.C108_values` | Classical.choice, Quot.sound, propext |
| C108 | `Trento.C108_broken` | Classical.choice, Quot.sound, propext |
| C108 | `Trento.C108_reported` | Classical.choice, Quot.sound, propext |
| C108 | `Trento.C108_broken_exit` | Classical.choice, Quot.sound, propext |
| C108 | `Trento.C108_empty_header_ub` | Classical.choice, Quot.sound, propext |
| C109 | `Trento.C109_texts` | Classical.choice, Quot.sound, propext |
| C109 | `Trento.C109_round_trip` | Classical.choice, Quot.sound, propext |
| C109 | `Trento.C109_options` | Classical.choice, Quot.sound, propext |
| C110 | `Trento.C110_texts` | Classical.choice, Quot.sound, propext |
| C110 | `Trento.C110_options` | Classical.choice, Quot.sound, propext |
| C110 | `Trento.C110_special_values` | Classical.choice, Quot.sound, propext |
| C110 | `Trento.C110_special_runs` | Classical.choice, Quot.sound, propext |
| C110 | `Trento.C110_nan_passes` | Classical.choice, Quot.sound, propext |
| C110 | `Trento.C110_nan_never_ends` | Classical.choice, Quot.sound, propext |
| C110 | `Trento.C110_inf_never_ends` | Classical.choice, Quot.sound, propext |
| C110 | `Trento.C110_grid` | Classical.choice, Quot.sound, propext |
| C111 | `Trento.C111_geometry` | Classical.choice, Quot.sound, propext |
| C111 | `Trento.C111_thickness` | Classical.choice, Quot.sound, propext |
| C111 | `Trento.C111_normalization` | Classical.choice, Quot.sound, propext |
| C111 | `Trento.C111_reduced_thickness` | Classical.choice, Quot.sound, propext |
| C112 | `Trento.C112_thickness_integral_le` | Classical.choice, Quot.sound, propext |
| C112 | `Trento.C112_thickness_integral_ge` | Classical.choice, Quot.sound, propext |
| C112 | `Trento.C112_multiplicity_le` | Classical.choice, Quot.sound, propext |
| C112 | `Trento.C112_multiplicity_ge` | Classical.choice, Quot.sound, propext |
| C112 | `Trento.C112_grid_choice` | Classical.choice, Quot.sound, propext |
| C113 | `Trento.C113_mean_le` | Classical.choice, Quot.sound, propext |
| C113 | `Trento.C113_wounded` | Classical.choice, Quot.sound, propext |
| C114 | `Trento.C114_mean` | Classical.choice, Quot.sound, propext |
| C114 | `Trento.C114_convergence` | Classical.choice, Quot.sound, propext |
| C114 | `Trento.C114_limit` | Classical.choice, Quot.sound, propext |
| C115 | `Trento.C115_normalization` | Classical.choice, Quot.sound, propext |
| C115 | `Trento.C115_weights` | Classical.choice, Quot.sound, propext |
| C115 | `Trento.C115_eccentricity` | Classical.choice, Quot.sound, propext |
| C115 | `Trento.C115_centre` | Classical.choice, Quot.sound, propext |
| C115 | `Trento.C115_mean` | Classical.choice, Quot.sound, propext |
| C115 | `Trento.C115_floors` | Classical.choice, Quot.sound, propext |
| C116 | `Trento.C116_participate` | Classical.choice, Quot.sound, propext |
| C116 | `Trento.C116_event` | Classical.choice, Quot.sound, propext |
| C116 | `Trento.C116_run` | Classical.choice, Quot.sound, propext |
| C117 | `Trento.C117_event` | Classical.choice, Quot.sound, propext |
| C117 | `Trento.C117_inside` | Classical.choice, Quot.sound, propext |
| C117 | `Trento.C117_run` | Classical.choice, Quot.sound, propext |
| C118 | `Trento.C118_event` | Classical.choice, Quot.sound, propext |
| C119 | `Trento.C119_spectators` | Classical.choice, Quot.sound, propext |
| C119 | `Trento.C119_order` | Classical.choice, Quot.sound, propext |
| C119 | `Trento.C119_superposition` | Classical.choice, Quot.sound, propext |
| C119 | `Trento.C119_growth` | Classical.choice, Quot.sound, propext |
| C120 | `Trento.C120_attempt` | Classical.choice, Quot.sound, propext |
| C120 | `Trento.C120_events` | Classical.choice, Quot.sound, propext |
| C120 | `Trento.C120_split` | Classical.choice, Quot.sound, propext |
| C121 | `Trento.C121_prefix` | Classical.choice, Quot.sound, propext |
| C121 | `Trento.C121_failure` | Classical.choice, Quot.sound, propext |
| C121 | `Trento.C121_program` | Classical.choice, Quot.sound, propext |
