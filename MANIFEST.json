{
 "claims": [
  {
   "property": "C01",
   "status": "proved",
   "theorems": [
    "Trento.C01_fastExp_accurate",
    "Trento.C01_fastExp_exact_at_points"
   ],
   "note": "exact real arithmetic"
  },
  {
   "property": "C02",
   "status": "proved",
   "theorems": [
    "Trento.C02_fastExp_debug_throws",
    "Trento.C02_fastExp_release_never_throws",
    "Trento.C02_fastExp_release_ub"
   ],
   "note": "first two for every arithmetic"
  },
  {
   "property": "C03",
   "status": "proved",
   "theorems": [
    "Trento.C03_thickness",
    "Trento.C03_error_small"
   ],
   "note": ""
  },
  {
   "property": "C04",
   "status": "proved",
   "theorems": [
    "Trento.C04_boundary",
    "Trento.C04_thickness_zero_outside",
    "Trento.C04_boundary_ub"
   ],
   "note": ""
  },
  {
   "property": "C05",
   "status": "proved",
   "theorems": [
    "Trento.C05_participate_flags"
   ],
   "note": "every arithmetic"
  },
  {
   "property": "C06",
   "status": "proved",
   "theorems": [
    "Trento.C06_out_of_range",
    "Trento.C06_out_of_range_ncoll"
   ],
   "note": ""
  },
  {
   "property": "C07",
   "status": "proved",
   "theorems": [
    "Trento.C07_participate_iff",
    "Trento.C07_probability"
   ],
   "note": ""
  },
  {
   "property": "C08",
   "status": "proved",
   "theorems": [
    "Trento.C08_recentred",
    "Trento.C08_sampled_once"
   ],
   "note": ""
  },
  {
   "property": "C09",
   "status": "proved",
   "theorems": [
    "Trento.C09_sampling_width",
    "Trento.C09_sampling_width_zero",
    "Trento.C09_variance"
   ],
   "note": ""
  },
  {
   "property": "C20",
   "status": "proved",
   "theorems": [
    "Trento.C20_grid_geometry",
    "Trento.C20_grid_exists"
   ],
   "note": ""
  },
  {
   "property": "C21",
   "status": "proved",
   "theorems": [
    "Trento.C21_thickness_is_direct_sum",
    "Trento.C21_thickness_nonneg"
   ],
   "note": ""
  },
  {
   "property": "C22",
   "status": "proved",
   "theorems": [
    "Trento.C22_deposition_in_bounds",
    "Trento.C22_every_arithmetic",
    "Trento.C22_zero_grid_ub"
   ],
   "note": "with the zero-size grid as a proved exception"
  },
  {
   "property": "C23",
   "status": "proved",
   "theorems": [
    "Trento.C23_npart"
   ],
   "note": "every arithmetic"
  },
  {
   "property": "C24",
   "status": "proved",
   "theorems": [
    "Trento.C24_history_independent"
   ],
   "note": "every arithmetic"
  },
  {
   "property": "C25",
   "status": "proved",
   "theorems": [
    "Trento.C25_reduced_thickness",
    "Trento.C25_trentoMean_eq",
    "Trento.C25_equal",
    "Trento.C25_between",
    "Trento.C25_vanishes"
   ],
   "note": ""
  },
  {
   "property": "C26",
   "status": "proved",
   "theorems": [
    "Trento.C26_monotone",
    "Trento.C26_event_monotone",
    "Trento.C26_continuous_at_zero",
    "Trento.C26_switch_is_small"
   ],
   "note": ""
  },
  {
   "property": "C27",
   "status": "proved",
   "theorems": [
    "Trento.C27_multiplicity",
    "Trento.C27_nonneg",
    "Trento.C27_linear_in_norm"
   ],
   "note": ""
  },
  {
   "property": "C28",
   "status": "proved",
   "theorems": [
    "Trento.C28_eccentricities"
   ],
   "note": ""
  },
  {
   "property": "C29",
   "status": "proved",
   "theorems": [
    "Trento.C29_eccentricity_range"
   ],
   "note": ""
  },
  {
   "property": "C30",
   "status": "proved",
   "theorems": [
    "Trento.C30_grid_mirror_x",
    "Trento.C30_grid_mirror_y",
    "Trento.C30_grid_swap",
    "Trento.C30_no_cancellation",
    "Trento.C30_event_symmetry"
   ],
   "note": ""
  },
  {
   "property": "C31",
   "status": "proved",
   "theorems": [
    "Trento.C31_exchange"
   ],
   "note": "every arithmetic with commutative + and *"
  },
  {
   "property": "C11",
   "status": "proved",
   "theorems": [
    "Trento.C11_documented_species",
    "Trento.C11_other_strings",
    "Trento.C11_deformed_pairs"
   ],
   "note": "every arithmetic"
  },
  {
   "property": "C12",
   "status": "proved",
   "theorems": [
    "Trento.C12_sampling_resets",
    "Trento.C12_size_constant"
   ],
   "note": "every arithmetic"
  },
  {
   "property": "C13",
   "status": "proved",
   "theorems": [
    "Trento.C13_offset_is_translation"
   ],
   "note": ""
  },
  {
   "property": "C14",
   "status": "proved",
   "theorems": [
    "Trento.C14_woods_saxon_radii",
    "Trento.C14_C16_deformed"
   ],
   "note": ""
  },
  {
   "property": "C15",
   "status": "proved",
   "theorems": [
    "Trento.C15_placement_spherical",
    "Trento.C15_placement_deformed",
    "Trento.C15_minimum_distance",
    "Trento.C15_all_pairs",
    "Trento.C15_inactive"
   ],
   "note": ""
  },
  {
   "property": "C16",
   "status": "proved",
   "theorems": [
    "Trento.C16_tilt_spin",
    "Trento.C16_euler",
    "Trento.drawTiltSpin_rotation",
    "Trento.drawEuler_rotation",
    "Trento.rotation_preserves_distance",
    "Trento.C16_manual_rigid",
    "Trento.C16_manual_total",
    "Trento.C14_C16_deformed"
   ],
   "note": ""
  },
  {
   "property": "C17",
   "status": "proved",
   "theorems": [
    "Trento.C17_rejection_loop",
    "Trento.C17_antipodal",
    "Trento.C17_exchange",
    "Trento.C17_probability_range",
    "Trento.C17_radius_le",
    "Trento.C17_acceptance_measure",
    "Trento.C17_hulthen_distribution",
    "Trento.C17_radius_quantile"
   ],
   "note": "the degenerate u = 0 is treated under C18"
  },
  {
   "property": "C19",
   "status": "proved",
   "theorems": [
    "Trento.C19_manual_validation",
    "Trento.C19_rank_overflow",
    "Trento.C19_zero_nucleons",
    "Trento.C19_manual_radius"
   ],
   "note": "every file content: undefined / accepted / std::invalid_argument, each characterised exactly"
  },
  {
   "property": "C59",
   "status": "proved",
   "theorems": [
    "Trento.C59_filename_is_hdf5"
   ],
   "note": ""
  },
  {
   "property": "C33",
   "status": "proved",
   "theorems": [
    "Trento.C33_impact_range",
    "Trento.C33_impact_distribution",
    "Trento.C33_events_in_range"
   ],
   "note": ""
  },
  {
   "property": "C34",
   "status": "proved",
   "theorems": [
    "Trento.C34_offsets",
    "Trento.C34_radius_nonneg"
   ],
   "note": ""
  },
  {
   "property": "C35",
   "status": "proved",
   "theorems": [
    "Trento.C35_bmax",
    "Trento.C35_radius",
    "Trento.C35_beyond_bmax_nothing"
   ],
   "note": ""
  },
  {
   "property": "C36",
   "status": "proved",
   "theorems": [
    "Trento.C36_every_event_collides",
    "Trento.C36_inRange_iff"
   ],
   "note": ""
  },
  {
   "property": "C37",
   "status": "proved",
   "theorems": [
    "Trento.C37_ncoll_bounds",
    "Trento.C37_ncoll_counts_hits"
   ],
   "note": ""
  },
  {
   "property": "C38",
   "status": "proved",
   "theorems": [
    "Trento.C38_seeded_runs_reproducible"
   ],
   "note": "every arithmetic; example_run shows a run that delivers events"
  },
  {
   "property": "C39",
   "status": "proved",
   "theorems": [
    "Trento.C39_attempt_fails",
    "Trento.C39_pp_never_returns"
   ],
   "note": ""
  },
  {
   "property": "C60",
   "status": "proved",
   "theorems": [
    "Trento.C60_participants",
    "Trento.C60_ncoll_does_not_change_participants"
   ],
   "note": "every arithmetic"
  },
  {
   "property": "C61",
   "status": "proved",
   "theorems": [
    "Trento.C61_sampling_no_ub",
    "Trento.C61_no_undefined_behaviour",
    "Trento.C61_writing",
    "Trento.C61_program"
   ],
   "note": "event generation, writing and the whole program; the bound on normal draws is a hypothesis on the random source, and the deuteron is covered only for canonical draws bounded away from 0 (see C18)"
  },
  {
   "property": "C62",
   "status": "proved",
   "theorems": [
    "Trento.C62_out_of_reach_never_returns",
    "Trento.C62_reach_of_species",
    "Trento.C62_extents"
   ],
   "note": ""
  },
  {
   "property": "C63",
   "status": "proved",
   "theorems": [
    "Trento.C63_outcome_unique"
   ],
   "note": "every arithmetic"
  },
  {
   "property": "C40",
   "status": "proved",
   "theorems": [
    "Trento.C40_records_in_order",
    "Trento.C40_each_event_once"
   ],
   "note": "every arithmetic"
  },
  {
   "property": "C41",
   "status": "proved",
   "theorems": [
    "Trento.C41_width",
    "Trento.C41_file_names"
   ],
   "note": ""
  },
  {
   "property": "C42",
   "status": "proved",
   "theorems": [
    "Trento.C42_line",
    "Trento.C42_columns_merge",
    "Trento.C42_documented_run"
   ],
   "note": "ranges as in Spec.Printable; b >= 1000 fm is a proved exception"
  },
  {
   "property": "C43",
   "status": "proved",
   "theorems": [
    "Trento.C43_read_back"
   ],
   "note": ""
  },
  {
   "property": "C44",
   "status": "proved",
   "theorems": [
    "Trento.C44_no_overwrite",
    "Trento.C44_refuses"
   ],
   "note": "every arithmetic; file system changed by this process only"
  },
  {
   "property": "C45",
   "status": "proved",
   "theorems": [
    "Trento.C45_text_files",
    "Trento.C45_empty_file_swallows"
   ],
   "note": "every initial file system, including failing opens; finding: an existing empty file is accepted as output directory and swallows all events"
  },
  {
   "property": "C46",
   "status": "proved",
   "theorems": [
    "Trento.C46_ncoll_entries"
   ],
   "note": ""
  },
  {
   "property": "C47",
   "status": "proved",
   "theorems": [
    "Trento.C47_text_grid",
    "Trento.C47_single_cell_ub"
   ],
   "note": "every grid size; finding: undefined behaviour for a one-cell grid"
  },
  {
   "property": "C48",
   "status": "proved",
   "theorems": [
    "Trento.C48_no_header",
    "Trento.C48_precision_differs"
   ],
   "note": "exact condition; finding: without header the precision is 6 instead of 10 digits"
  },
  {
   "property": "C49",
   "status": "proved",
   "theorems": [
    "Trento.C49_hdf5_file",
    "Trento.C49_hdf5_dataset"
   ],
   "note": "every arithmetic"
  },
  {
   "property": "C50",
   "status": "proved",
   "theorems": [
    "Trento.C50_location",
    "Trento.C50_lookup",
    "Trento.C50_first_run"
   ],
   "note": "text files with records below the column width (Spec.Cacheable)"
  },
  {
   "property": "C51",
   "status": "proved",
   "theorems": [
    "Trento.C51_stable"
   ],
   "note": ""
  },
  {
   "property": "C52",
   "status": "proved",
   "theorems": [
    "Trento.C52_crash",
    "Trento.C52_empty_cache_ub",
    "Trento.C52_torn_write",
    "Trento.C52_torn_value"
   ],
   "note": "every crash point; findings: an interrupted first run leaves an empty cache file which later runs read as uninitialised values; a torn record makes a later run use the value of another configuration or a truncated value"
  },
  {
   "property": "C53",
   "status": "proved",
   "theorems": [
    "Trento.C53_search_ends",
    "Trento.C53_well_formed",
    "Trento.C53_empty_file_ub",
    "Trento.C53_garbage_never_ends",
    "Trento.C53_separators",
    "Trento.C53_integer_ends"
   ],
   "note": "every file content: exact condition for termination; findings: malformed content makes the search run forever, an empty file is undefined behaviour"
  },
  {
   "property": "C54",
   "status": "proved",
   "theorems": [
    "Trento.C54_estimate",
    "Trento.C54_outcome",
    "Trento.C54_biased",
    "Trento.C54_negative"
   ],
   "note": "exact value, convergence criterion, range; finding: the sum of n+1 samples is divided by n, so the value is biased and can be negative"
  },
  {
   "property": "C55",
   "status": "proved",
   "theorems": [
    "Trento.C55_values",
    "Trento.C55_pass",
    "Trento.C55_quantiles",
    "Trento.C55_pass_mean",
    "Trento.C55_repeats"
   ],
   "note": "every pass; finding: in a pass with a reshuffle (after its first draw) values can repeat"
  },
  {
   "property": "C10",
   "status": "proved",
   "theorems": [
    "Trento.C10_root_iff",
    "Trento.C10_strictly_increasing",
    "Trento.C10_fit"
   ],
   "note": "C10_fit: given the bracket contract of boost's root finder (LawfulToms); C103 shows that the algorithm of Boost meets it and how narrow the bracket is"
  },
  {
   "property": "C32",
   "status": "proved",
   "theorems": [
    "Trento.C32_event",
    "Trento.C32_zero_eccentricities",
    "Trento.C32_no_overlap",
    "Trento.C32_centre_is_nan"
   ],
   "note": "reals with the IEEE special values; C32_no_overlap: every arithmetic"
  },
  {
   "property": "C56",
   "status": "proved",
   "theorems": [
    "Trento.C56_precedence",
    "Trento.C56_defaults",
    "Trento.C56_values"
   ],
   "note": "every arithmetic; the Boost parsers are abstract"
  },
  {
   "property": "C57",
   "status": "proved",
   "theorems": [
    "Trento.C57_validation",
    "Trento.C57_validation_any",
    "Trento.C57_check_iff"
   ],
   "note": "C57_validation_any: every arithmetic, including NaN"
  },
  {
   "property": "C58",
   "status": "proved",
   "theorems": [
    "Trento.C58_information",
    "Trento.C58_texts",
    "Trento.C58_rejected",
    "Trento.C58_projectiles",
    "Trento.C58_config_files",
    "Trento.C58_widths",
    "Trento.C58_exceptions",
    "Trento.C58_failed_run",
    "Trento.C58_output_failure",
    "Trento.C58_hdf5_directory_terminates"
   ],
   "note": "C58_texts checks the help text against the table of accepted projectiles (Xe2 is accepted but not offered); the property says what the code does: exceptions of the HDF5 library are not derived from std::exception and escape main (a finding, shown by C58_hdf5_directory_terminates)"
  },
  {
   "property": "C64",
   "status": "proved",
   "theorems": [
    "Trento.C64_successful_run",
    "Trento.C64_completes"
   ],
   "note": "every arithmetic"
  },
  {
   "property": "C65",
   "status": "proved",
   "theorems": [
    "Trento.C65_program_only_adds"
   ],
   "note": "every arithmetic; file system changed by this process only"
  },
  {
   "property": "C66",
   "status": "proved",
   "theorems": [
    "Trento.C66_seeded_program",
    "Trento.C66_cache_answers"
   ],
   "note": ""
  },
  {
   "property": "C67",
   "status": "proved",
   "theorems": [
    "Trento.C67_stdout"
   ],
   "note": ""
  },
  {
   "property": "C68",
   "status": "proved",
   "theorems": [
    "Trento.C68_text_files",
    "Trento.C68_hdf5_file"
   ],
   "note": ""
  },
  {
   "property": "C69",
   "status": "proved",
   "theorems": [
    "Trento.C69_draws",
    "Trento.C69_unit_mean"
   ],
   "note": ""
  },
  {
   "property": "C70",
   "status": "proved",
   "theorems": [
    "Trento.C70_spherical",
    "Trento.C70_deformed",
    "Trento.C70_acceptance_measure",
    "Trento.C70_proposal_le",
    "Trento.C70_deformed_distribution",
    "Trento.C70_reflection",
    "Trento.C70_cutoff"
   ],
   "note": "the piecewise linear distribution is modelled by its table, as the C++ standard constructs it"
  },
  {
   "property": "C18",
   "status": "proved",
   "theorems": [
    "Trento.C18_finite_positions",
    "Trento.C18_deuteron",
    "Trento.C18_zero_is_accepted"
   ],
   "note": "reals with the IEEE special values"
  },
  {
   "property": "C71",
   "status": "proved",
   "theorems": [
    "Trento.C71_no_special_values",
    "Trento.C71_records_finite"
   ],
   "note": "reals with the IEEE special values; rounding and overflow are not modelled"
  },
  {
   "property": "C72",
   "status": "proved",
   "theorems": [
    "Trento.C72_zero_constituents"
   ],
   "note": "reals with the IEEE special values"
  },
  {
   "property": "C73",
   "status": "proved",
   "theorems": [
    "Trento.C73_concurrent_cache",
    "Trento.C73_afterwards",
    "Trento.C73_first_runs_ub",
    "Trento.steps_alone"
   ],
   "note": "lookup is one step (a snapshot of the file), the record is appended by one write; finding: simultaneous first runs read an empty file"
  },
  {
   "property": "C74",
   "status": "proved",
   "theorems": [
    "Trento.C74_separate_outputs",
    "Trento.C74_alone",
    "Trento.C74_same_directory"
   ],
   "note": "construction and each writer call are one step each; finding: two runs into the same directory can both pass the emptiness check and overwrite each other"
  },
  {
   "property": "C75",
   "status": "proved",
   "theorems": [
    "Trento.C75_samples",
    "Trento.C75_stratified",
    "Trento.C75_fit",
    "Trento.C75_single"
   ],
   "note": "the contract of Boost's root finder is a hypothesis (BracketingToms, LawfulToms) that the model of its algorithm meets (C103)"
  },
  {
   "property": "C76",
   "status": "proved",
   "theorems": [
    "Trento.C76_thickness",
    "Trento.cutThickness_ideal"
   ],
   "note": "rounded arithmetic (Model/Rounded): no overflow, NaN or fused multiply-add; release build"
  },
  {
   "property": "C77",
   "status": "proved",
   "theorems": [
    "Trento.C77_nonnegative"
   ],
   "note": "rounded arithmetic (Model/Rounded); concrete run: example_run_fl"
  },
  {
   "property": "C78",
   "status": "proved",
   "theorems": [
    "Trento.C78_no_undefined_behaviour_rounded",
    "Trento.C78_documented_species"
   ],
   "note": "rounded arithmetic (Model/Rounded): no overflow or NaN; concrete run: example_run_fl"
  },
  {
   "property": "C79",
   "status": "proved",
   "theorems": [
    "Trento.C79_observables_accurate",
    "Trento.C79_eccentricity_range"
   ],
   "note": "release build; n <= 10000, cells <= 1e60, gridStep in [0,1e10], constitWidth >= 1e-10, norm >= 0; machine arithmetic per Model/Rounded"
  },
  {
   "property": "C80",
   "status": "proved",
   "theorems": [
    "Trento.C80_thickness_grids",
    "Trento.example_grid_fl"
   ],
   "note": "Release build (assertions off). Rounded carrier without overflow; constituent width in [1e-10,1e6] fm, up to 1e6 constituents, nucleons, cells per side."
  },
  {
   "property": "C81",
   "status": "proved",
   "theorems": [
    "Trento.C81_reduced_thickness",
    "Trento.reduced_fl"
   ],
   "note": "Release build. The contract for std::pow is: relative error below 4u plus underflow, pow(0,y)=0 for y>0. Thicknesses up to 1e12. Rounded carrier without overflow. The bound shows what the code does not guard against: for |p| slightly above 1e-12 the relative error may reach 1e-2."
  },
  {
   "property": "C82",
   "status": "proved",
   "theorems": [
    "Trento.C82_collisions"
   ],
   "note": "rounded arithmetic without overflow; impact_near gives the relative accuracy of the formula itself, inRange_fl both directions of the range test, bmax_near the default limit"
  },
  {
   "property": "C83",
   "status": "proved",
   "theorems": [
    "Trento.C83_participation"
   ],
   "note": "error bounds proved for every position; the rounded counterpart of C06/C07"
  },
  {
   "property": "C84",
   "status": "proved",
   "theorems": [
    "Trento.C84_every_record"
   ],
   "note": "exact real arithmetic; rounded counterparts are C76-C83"
  },
  {
   "property": "C85",
   "status": "proved",
   "theorems": [
    "Trento.C85_isotropic"
   ],
   "note": "Exact reals and an idealised source (Spec.IdealSource): canonical numbers i.i.d. uniform, independent of later draws; the law of the library radius distribution is left abstract. idealTape_ideal exhibits such a source."
  },
  {
   "property": "C86",
   "status": "proved",
   "theorems": [
    "Trento.C86_tail",
    "Trento.C86_almost_surely",
    "Trento.C86_documented"
   ],
   "note": "Exact reals, idealised source as in C85."
  },
  {
   "property": "C87",
   "status": "proved",
   "theorems": [
    "Trento.C87_deuteron",
    "Trento.C87_deuteron_opposite",
    "Trento.C87_spherical",
    "Trento.C87_deformed",
    "Trento.C87_normalisable",
    "Trento.C87_normalisable_deformed"
   ],
   "note": "Exact reals, ideal source as in C85, laws given that sampling ended (C86: almost surely). For spherical nuclei the law of one library radius draw from the table is abstract."
  },
  {
   "property": "C88",
   "status": "proved",
   "theorems": [
    "Trento.C88_collision",
    "Trento.C88_run",
    "Trento.C88_continue"
   ],
   "note": "Generic in the arithmetic. Stale constituent vectors are the only difference and are shown to be never read."
  },
  {
   "property": "C89",
   "status": "proved",
   "theorems": [
    "Trento.C89_unbiased",
    "Trento.C89_attempts",
    "Trento.C89_terminates"
   ],
   "note": "Ideal source: draws have fixed laws and are independent of the state after them (FreshSource; met by a tape of independent uniform numbers)."
  },
  {
   "property": "C90",
   "status": "proved",
   "theorems": [
    "Trento.C90_impact_mixture",
    "Trento.C90_cross_section"
   ],
   "note": "Generalises C33 from the distribution of b alone to the joint distribution with everything else in the event."
  },
  {
   "property": "C91",
   "status": "proved",
   "theorems": [
    "Trento.C91_at",
    "Trento.C91_cross_section",
    "Trento.C91_options",
    "Trento.C91_terminates"
   ],
   "note": "With C10: the value is the cross-section option. One constituent of the width of the nucleon; for more constituents pair_probability gives the mean over the constituents."
  },
  {
   "property": "C92",
   "status": "proved",
   "theorems": [
    "Trento.C92_law",
    "Trento.C92_independent",
    "Trento.C92_each",
    "Trento.C92_attempts",
    "Trento.C92_joint"
   ],
   "note": "Ideal source (FreshSource). A run that is not completed (fuel for the rejection and retry loops) counts as outside every set; C94: the probability tends to zero with the fuel."
  },
  {
   "property": "C93",
   "status": "proved",
   "theorems": [
    "Trento.C93_standard_error"
   ],
   "note": "Consequence of C92 (Chebyshev). Fuel as in C92."
  },
  {
   "property": "C94",
   "status": "proved",
   "theorems": [
    "Trento.C94_collision",
    "Trento.C94_events",
    "Trento.C94_run",
    "Trento.C94_species",
    "Trento.example_terminates"
   ],
   "note": "Complements C62/C39 (runs that never end). The limit 6 w on b-min is the reach of two nucleons on the axes of their nuclei; for larger b-min up to the reach of the nuclei (C62) the statement is not proved."
  },
  {
   "property": "C95",
   "status": "proved",
   "theorems": [
    "Trento.C95_contract",
    "Trento.C95_twister",
    "Trento.C95_zero",
    "Trento.C95_normal",
    "Trento.C95_positions",
    "Trento.C95_erase",
    "Trento.C95_run",
    "Trento.C95_exact",
    "Trento.C95_rounded"
   ],
   "note": "Model/LibRandom.lean models mt19937_64 as the C++ standard defines it (the model delivers the value the standard prescribes for the 10000th number) and the algorithms of libstdc++ (GCC 13): polar method, Marsaglia-Tsang, inversion of a piecewise linear density, Lemire, pairwise shuffle. Exact real arithmetic except for generate_canonical, which is bit exact. A rejection loop that never ends yields a fixed value in the model."
  },
  {
   "property": "C96",
   "status": "proved",
   "theorems": [
    "Trento.C96_seeds",
    "Trento.C96_alive",
    "Trento.C96_temper"
   ],
   "note": "About the 64-bit numbers of the engine; generate_canonical keeps 53 bits of each."
  },
  {
   "property": "C97",
   "status": "proved",
   "theorems": [
    "Trento.C97_independent",
    "Trento.C97_each",
    "Trento.C97_fresh",
    "Trento.C97_ideal",
    "Trento.C97_spherical",
    "Trento.C97_events",
    "Trento.C97_proton_proton"
   ],
   "note": "The model of libstdc++ (Model/LibRandom.lean) with the engine replaced by an ideal tape of independent uniform reals; 64-bit words are the first 64 binary digits of the same numbers. Real arithmetic. That mt19937_64 behaves like such a tape is not, and cannot be, proved."
  },
  {
   "property": "C98",
   "status": "proved",
   "theorems": [
    "Trento.C98_constituent",
    "Trento.C98_weights",
    "Trento.C98_moments",
    "Trento.C98_thickness"
   ],
   "note": "Real arithmetic; the distributions of libstdc++ on an ideal engine (C97). For a single constituent narrower than the nucleon, and for widths that differ by less than 1e-6, the sampling width is 0 and the nucleon has the width of its constituents: not covered by KeepsWidth."
  },
  {
   "property": "C99",
   "status": "proved",
   "theorems": [
    "Trento.C99_shuffle",
    "Trento.C99_orders",
    "Trento.C99_sampler"
   ],
   "note": "libstdc++ std::shuffle (pairs of positions from one number; the one-by-one variant for very long lists) and Lemire integers on an ideal engine."
  },
  {
   "property": "C100",
   "status": "proved",
   "theorems": [
    "Trento.C100_collision",
    "Trento.C100_event",
    "Trento.C100_run",
    "Trento.C100_mean",
    "Trento.C100_library"
   ],
   "note": "Source of independent random numbers with symmetric normals (C100_library: libstdc++ on an ideal engine is one). C100_run and C100_mean ask for bounded normals, C100_event instead restricts to events whose constituents lie within any bound that keeps the grid indices inside int."
  },
  {
   "property": "C101",
   "status": "proved",
   "theorems": [
    "Trento.C101_collision",
    "Trento.C101_event",
    "Trento.C101_run",
    "Trento.C101_mean",
    "Trento.C101_identical"
   ],
   "note": "Source of independent random numbers with symmetric normals (C100_library: libstdc++ on an ideal engine is one). C101_run and C101_mean ask for bounded normals, C101_event instead restricts to events whose constituents lie within any bound that keeps the grid indices inside int."
  },
  {
   "property": "C102",
   "status": "proved",
   "theorems": [
    "Trento.C102_pairs",
    "Trento.C102_glauber",
    "Trento.C102_total",
    "Trento.C102_bound",
    "Trento.C102_protons",
    "Trento.C102_scaling",
    "Trento.C102_events",
    "Trento.C102_sampled",
    "Trento.C102_options",
    "Trento.C102_isotropic",
    "Trento.C102_library"
   ],
   "note": "Source of independent random numbers, exact real arithmetic. The factors sampled are the probabilities that the rejection loops of the nuclei end within the given number of tries: 1 for protons, spherical nuclei and files, tending to 1 for the others (C102_sampled). The isotropy of the pair probability that the general theorems ask for is proved for libstdc++ and any substructure (C102_isotropic, used in C102_library) and for any source without substructure (C102_options)."
  },
  {
   "property": "C103",
   "status": "proved",
   "theorems": [
    "Trento.C103_root_finder",
    "Trento.C103_fit",
    "Trento.C103_reproduces",
    "Trento.C103_fails",
    "Trento.C103_proton_proton",
    "Trento.C103_monte_carlo",
    "Trento.boostToms_lawful",
    "Trento.boostToms_bracketing",
    "Trento.boostToms_safe"
   ],
   "note": "Model/Toms748.lean is a model of the algorithm of Boost (toms748_solve.hpp), in exact real arithmetic. boostToms_lawful, _bracketing and _safe show that it meets the contracts that C10, C75 and C61 ask for."
  },
  {
   "property": "C104",
   "status": "proved",
   "theorems": [
    "Trento.C104_positions",
    "Trento.C104_point",
    "Trento.C104_wounded",
    "Trento.C104_point_nuclei",
    "Trento.C104_collision",
    "Trento.C104_cross_section",
    "Trento.C104_npart",
    "Trento.C104_monotone"
   ],
   "note": "Quiet, wounded, spared, pairProduct, pass, positionMean in Props/Wounded.lean are the specification. An attempt that does not collide has no participants; attempts whose rejection sampling exceeds rfuel count as 0 on both sides."
  },
  {
   "property": "C105",
   "status": "proved",
   "theorems": [
    "Trento.C105_weight",
    "Trento.C105_positions",
    "Trento.C105_mean",
    "Trento.C105_counts",
    "Trento.C105_events"
   ],
   "note": "setWeight, unitWeights, AffineInWeights, eventLaw are the specification. Events whose rejection sampling exceeds rfuel, or with no collision in the given number of attempts, count as 0 on both sides."
  },
  {
   "property": "C106",
   "status": "proved",
   "theorems": [
    "Trento.C106_variance",
    "Trento.C106_probability",
    "Trento.C106_events",
    "Trento.C106_limit"
   ],
   "note": "Ideal engine with the library distributions (libMix), real arithmetic."
  },
  {
   "property": "C107",
   "status": "proved",
   "theorems": [
    "Trento.C107_spellings",
    "Trento.C107_groups",
    "Trento.C107_results",
    "Trento.C107_mistakes",
    "Trento.C107_order"
   ],
   "note": "Model of the parser of Boost.Program_options (unix style) with the option table of trento.cxx; the documented table and spellings are in Spec/CommandLine.lean. That a long option in the place of a value is taken as the value is shown as an example."
  },
  {
   "property": "C108",
   "status": "proved",
   "theorems": [
    "Trento.C108_syntax",
    "Trento.C108_values",
    "Trento.C108_broken",
    "Trento.C108_reported",
    "Trento.C108_broken_exit",
    "Trento.C108_empty_header_ub"
   ],
   "note": "Model of po::parse_config_file. The header [] is undefined behaviour of the library (C108_empty_header_ub); without one every refused run ends in exit status 1 with a message (C108_reported)."
  },
  {
   "property": "C109",
   "status": "proved",
   "theorems": [
    "Trento.C109_texts",
    "Trento.C109_round_trip",
    "Trento.C109_options"
   ],
   "note": "Model of boost::lexical_cast for signed integers. random-seed -1 and below mean automatic (C63)."
  },
  {
   "property": "C110",
   "status": "proved",
   "theorems": [
    "Trento.C110_texts",
    "Trento.C110_options",
    "Trento.C110_special_values",
    "Trento.C110_special_runs",
    "Trento.C110_nan_passes",
    "Trento.C110_nan_never_ends",
    "Trento.C110_inf_never_ends",
    "Trento.C110_grid"
   ],
   "note": "Model of boost::lexical_cast<double> (inf_nan.hpp, converter_lexical_streams.hpp) and of num_get in libstdc++."
  },
  {
   "property": "C111",
   "status": "proved",
   "theorems": [
    "Trento.C111_geometry",
    "Trento.C111_thickness",
    "Trento.C111_normalization",
    "Trento.C111_reduced_thickness"
   ],
   "note": "SameThickness spells out the fields that agree. C111_geometry and C111_thickness hold for any arithmetic and random source; the last two for exact reals."
  },
  {
   "property": "C112",
   "status": "proved",
   "theorems": [
    "Trento.C112_thickness_integral_le",
    "Trento.C112_thickness_integral_ge",
    "Trento.C112_multiplicity_le",
    "Trento.C112_multiplicity_ge",
    "Trento.C112_grid_choice"
   ],
   "note": "Exact arithmetic. Bounds include the cut at five widths and the error of the fast exponential. Steps above the constituent width are outside the statement."
  },
  {
   "property": "C113",
   "status": "proved",
   "theorems": [
    "Trento.C113_mean_le",
    "Trento.C113_wounded"
   ],
   "note": "The events counted in C113_wounded are chosen by positions only; all other events count zero on both sides."
  },
  {
   "property": "C114",
   "status": "proved",
   "theorems": [
    "Trento.C114_mean",
    "Trento.C114_convergence",
    "Trento.C114_limit"
   ],
   "note": "Negative p is not included: the code sets the mean to zero below a thickness of 1e-12, which makes it not concave there (by at most the threshold values)."
  },
  {
   "property": "C115",
   "status": "proved",
   "theorems": [
    "Trento.C115_normalization",
    "Trento.C115_weights",
    "Trento.C115_eccentricity",
    "Trento.C115_centre",
    "Trento.C115_mean",
    "Trento.C115_floors"
   ],
   "note": "in exact real arithmetic; the floors of 1e-12 are the hypotheses KeepsFloor and KeepsShape, and C115_floors shows that they cannot be dropped"
  },
  {
   "property": "C116",
   "status": "proved",
   "theorems": [
    "Trento.C116_participate",
    "Trento.C116_event",
    "Trento.C116_run"
   ],
   "note": "exact real arithmetic; the cross section parameter is a parameter of the theorem (its fit is C10, C103); radii of species other than p are fixed in fm, so the run statement is for protons, the event statement for any nucleons"
  },
  {
   "property": "C117",
   "status": "proved",
   "theorems": [
    "Trento.C117_event",
    "Trento.C117_inside",
    "Trento.C117_run"
   ],
   "note": "exact real arithmetic (with rounding the cell centres of the two grids differ in the last bits); grid-max raised by other amounts shifts the cell centres, hence the restriction to whole steps; \"multiplicity can only grow\" for a nonnegative normalization"
  },
  {
   "property": "C118",
   "status": "proved",
   "theorems": [
    "Trento.C118_event"
   ],
   "note": "exact real arithmetic; a displacement by a fraction of a cell samples the thickness at other points and is not covered"
  },
  {
   "property": "C119",
   "status": "proved",
   "theorems": [
    "Trento.C119_spectators",
    "Trento.C119_order",
    "Trento.C119_superposition",
    "Trento.C119_growth"
   ],
   "note": "order and superposition: exact real arithmetic (floating-point addition is not associative); number of participants is C23; nonnegative weights (as drawn) are assumed in the two exact statements"
  },
  {
   "property": "C120",
   "status": "proved",
   "theorems": [
    "Trento.C120_attempt",
    "Trento.C120_events",
    "Trento.C120_split"
   ],
   "note": "exact real arithmetic; random numbers as in C89/C90 (a fresh source, provided for the library by C97); the cross section parameter is the same in both runs"
  },
  {
   "property": "C121",
   "status": "proved",
   "theorems": [
    "Trento.C121_prefix",
    "Trento.C121_failure",
    "Trento.C121_program"
   ],
   "note": "events as delivered to the writers; the text output pads the event number according to the number of events asked for (C41), so the lines may differ in white space; C121_program is for exact arithmetic and two runs started with the same files and random state"
  }
 ]
}