c("C01","proved","C01_fastExp_accurate C01_fastExp_exact_at_points","exact real arithmetic")
c("C02","proved","C02_fastExp_debug_throws C02_fastExp_release_never_throws C02_fastExp_release_ub","first two for every arithmetic")
c("C03","proved","C03_thickness C03_error_small")
c("C04","proved","C04_boundary C04_thickness_zero_outside C04_boundary_ub")
c("C05","proved","C05_participate_flags","every arithmetic")
c("C06","proved","C06_out_of_range C06_out_of_range_ncoll")
c("C07","proved","C07_participate_iff C07_probability")
c("C08","proved","C08_recentred C08_sampled_once")
c("C09","proved","C09_sampling_width C09_sampling_width_zero C09_variance")
c("C20","proved","C20_grid_geometry C20_grid_exists")
c("C21","proved","C21_thickness_is_direct_sum C21_thickness_nonneg")
c("C22","proved","C22_deposition_in_bounds C22_every_arithmetic C22_zero_grid_ub","with the zero-size grid as a proved exception")
c("C23","proved","C23_npart","every arithmetic")
c("C24","proved","C24_history_independent","every arithmetic")
c("C25","proved","C25_reduced_thickness C25_trentoMean_eq C25_equal C25_between C25_vanishes")
c("C26","proved","C26_monotone C26_event_monotone C26_continuous_at_zero C26_switch_is_small")
c("C27","proved","C27_multiplicity C27_nonneg C27_linear_in_norm")
c("C28","proved","C28_eccentricities")
c("C29","proved","C29_eccentricity_range")
c("C30","proved","C30_grid_mirror_x C30_grid_mirror_y C30_grid_swap C30_no_cancellation C30_event_symmetry")
c("C31","proved","C31_exchange","every arithmetic with commutative + and *")

c("C11","proved","C11_documented_species C11_other_strings C11_deformed_pairs","every arithmetic")
c("C12","proved","C12_sampling_resets C12_size_constant","every arithmetic")
c("C13","proved","C13_offset_is_translation")
c("C14","proved","C14_woods_saxon_radii C14_C16_deformed")
c("C15","proved","C15_placement_spherical C15_placement_deformed C15_minimum_distance C15_all_pairs C15_inactive")
c("C16","proved","C16_tilt_spin C16_euler drawTiltSpin_rotation drawEuler_rotation rotation_preserves_distance C16_manual_rigid C16_manual_total C14_C16_deformed")
c("C17","proved","C17_rejection_loop C17_antipodal C17_exchange C17_probability_range C17_radius_le C17_acceptance_measure C17_hulthen_distribution C17_radius_quantile","the degenerate u = 0 is treated under C18")
c("C19","proved","C19_manual_validation C19_rank_overflow C19_zero_nucleons C19_manual_radius","every file content: undefined / accepted / std::invalid_argument, each characterised exactly")
c("C59","proved","C59_filename_is_hdf5")

c("C33","proved","C33_impact_range C33_impact_distribution C33_events_in_range")
c("C34","proved","C34_offsets C34_radius_nonneg")
c("C35","proved","C35_bmax C35_radius C35_beyond_bmax_nothing")
c("C36","proved","C36_every_event_collides C36_inRange_iff")
c("C37","proved","C37_ncoll_bounds C37_ncoll_counts_hits")
c("C38","proved","C38_seeded_runs_reproducible","every arithmetic; example_run shows a run that delivers events")
c("C39","proved","C39_attempt_fails C39_pp_never_returns")
c("C60","proved","C60_participants C60_ncoll_does_not_change_participants","every arithmetic")
c("C61","proved","C61_sampling_no_ub C61_no_undefined_behaviour C61_writing C61_program","event generation, writing and the whole program; the bound on normal draws is a hypothesis on the random source, and the deuteron is covered only for canonical draws bounded away from 0 (see C18)")
c("C62","proved","C62_out_of_reach_never_returns C62_reach_of_species C62_extents")
c("C63","proved","C63_outcome_unique","every arithmetic")

c("C40","proved","C40_records_in_order C40_each_event_once","every arithmetic")
c("C41","proved","C41_width C41_file_names")
c("C42","proved","C42_line C42_columns_merge C42_documented_run","ranges as in Spec.Printable; b >= 1000 fm is a proved exception")
c("C43","proved","C43_read_back")
c("C44","proved","C44_no_overwrite C44_refuses","every arithmetic; file system changed by this process only")
c("C45","proved","C45_text_files C45_empty_file_swallows","every initial file system, including failing opens; finding: an existing empty file is accepted as output directory and swallows all events")
c("C46","proved","C46_ncoll_entries")
c("C47","proved","C47_text_grid C47_single_cell_ub","every grid size; finding: undefined behaviour for a one-cell grid")
c("C48","proved","C48_no_header C48_precision_differs","exact condition; finding: without header the precision is 6 instead of 10 digits")
c("C49","proved","C49_hdf5_file C49_hdf5_dataset","every arithmetic")

c("C50","proved","C50_location C50_lookup C50_first_run","text files with records below the column width (Spec.Cacheable)")
c("C51","proved","C51_stable")
c("C52","proved","C52_crash C52_empty_cache_ub C52_torn_write C52_torn_value","every crash point; findings: an interrupted first run leaves an empty cache file which later runs read as uninitialised values; a torn record makes a later run use the value of another configuration or a truncated value")
c("C53","proved","C53_search_ends C53_well_formed C53_empty_file_ub C53_garbage_never_ends C53_separators C53_integer_ends","every file content: exact condition for termination; findings: malformed content makes the search run forever, an empty file is undefined behaviour")
c("C54","proved","C54_estimate C54_outcome C54_biased C54_negative","exact value, convergence criterion, range; finding: the sum of n+1 samples is divided by n, so the value is biased and can be negative")
c("C55","proved","C55_values C55_pass C55_quantiles C55_pass_mean C55_repeats","every pass; finding: in a pass with a reshuffle (after its first draw) values can repeat")
c("C10","proved","C10_root_iff C10_strictly_increasing C10_fit","C10_fit: given the bracket contract of boost's root finder (LawfulToms); C103 shows that the algorithm of Boost meets it and how narrow the bracket is")

c("C32","proved","C32_event C32_zero_eccentricities C32_no_overlap C32_centre_is_nan","reals with the IEEE special values; C32_no_overlap: every arithmetic")
c("C56","proved","C56_precedence C56_defaults C56_values","every arithmetic; the Boost parsers are abstract")
c("C57","proved","C57_validation C57_validation_any C57_check_iff","C57_validation_any: every arithmetic, including NaN")
c("C58","proved","C58_information C58_texts C58_rejected C58_projectiles C58_config_files C58_widths C58_exceptions C58_failed_run C58_output_failure C58_hdf5_directory_terminates","C58_texts checks the help text against the table of accepted projectiles (Xe2 is accepted but not offered); the property says what the code does: exceptions of the HDF5 library are not derived from std::exception and escape main (a finding, shown by C58_hdf5_directory_terminates)")
c("C64","proved","C64_successful_run C64_completes","every arithmetic")
c("C65","proved","C65_program_only_adds","every arithmetic; file system changed by this process only")
c("C66","proved","C66_seeded_program C66_cache_answers")
c("C67","proved","C67_stdout")
c("C68","proved","C68_text_files C68_hdf5_file")
c("C69","proved","C69_draws C69_unit_mean")
c("C70","proved","C70_spherical C70_deformed C70_acceptance_measure C70_proposal_le C70_deformed_distribution C70_reflection C70_cutoff","the piecewise linear distribution is modelled by its table, as the C++ standard constructs it")
c("C18","proved","C18_finite_positions C18_deuteron C18_zero_is_accepted","reals with the IEEE special values")
c("C71","proved","C71_no_special_values C71_records_finite","reals with the IEEE special values; rounding and overflow are not modelled")
c("C72","proved","C72_zero_constituents","reals with the IEEE special values")
c("C73","proved","C73_concurrent_cache C73_afterwards C73_first_runs_ub steps_alone","lookup is one step (a snapshot of the file), the record is appended by one write; finding: simultaneous first runs read an empty file")
c("C74","proved","C74_separate_outputs C74_alone C74_same_directory","construction and each writer call are one step each; finding: two runs into the same directory can both pass the emptiness check and overwrite each other")
c("C75","proved","C75_samples C75_stratified C75_fit C75_single","the contract of Boost's root finder is a hypothesis (BracketingToms, LawfulToms) that the model of its algorithm meets (C103)")
c("C76","proved","C76_thickness cutThickness_ideal","rounded arithmetic (Model/Rounded): no overflow, NaN or fused multiply-add; release build")
c('C77','proved','C77_nonnegative','rounded arithmetic (Model/Rounded); concrete run: example_run_fl')
c('C78','proved','C78_no_undefined_behaviour_rounded C78_documented_species','rounded arithmetic (Model/Rounded): no overflow or NaN; concrete run: example_run_fl')
c('C79','proved','C79_observables_accurate C79_eccentricity_range','release build; n <= 10000, cells <= 1e60, gridStep in [0,1e10], constitWidth >= 1e-10, norm >= 0; machine arithmetic per Model/Rounded')
c('C80','proved','C80_thickness_grids example_grid_fl','Release build (assertions off). Rounded carrier without overflow; constituent width in [1e-10,1e6] fm, up to 1e6 constituents, nucleons, cells per side.')
c('C81','proved','C81_reduced_thickness reduced_fl','Release build. The contract for std::pow is: relative error below 4u plus underflow, pow(0,y)=0 for y>0. Thicknesses up to 1e12. Rounded carrier without overflow. The bound shows what the code does not guard against: for |p| slightly above 1e-12 the relative error may reach 1e-2.')
c('C82','proved','C82_collisions','rounded arithmetic without overflow; impact_near gives the relative accuracy of the formula itself, inRange_fl both directions of the range test, bmax_near the default limit')
c('C83','proved','C83_participation','error bounds proved for every position; the rounded counterpart of C06/C07')
c('C84','proved','C84_every_record','exact real arithmetic; rounded counterparts are C76-C83')
c('C85','proved','C85_isotropic','Exact reals and an idealised source (Spec.IdealSource): canonical numbers i.i.d. uniform, independent of later draws; the law of the library radius distribution is left abstract. idealTape_ideal exhibits such a source.')
c('C86','proved','C86_tail C86_almost_surely C86_documented','Exact reals, idealised source as in C85.')
c('C87','proved','C87_deuteron C87_deuteron_opposite C87_spherical C87_deformed C87_normalisable C87_normalisable_deformed','Exact reals, ideal source as in C85, laws given that sampling ended (C86: almost surely). For spherical nuclei the law of one library radius draw from the table is abstract.')
c('C88','proved','C88_collision C88_run C88_continue','Generic in the arithmetic. Stale constituent vectors are the only difference and are shown to be never read.')
c('C89','proved','C89_unbiased C89_attempts C89_terminates','Ideal source: draws have fixed laws and are independent of the state after them (FreshSource; met by a tape of independent uniform numbers).')
c('C90','proved','C90_impact_mixture C90_cross_section','Generalises C33 from the distribution of b alone to the joint distribution with everything else in the event.')
c('C91','proved','C91_at C91_cross_section C91_options C91_terminates','With C10: the value is the cross-section option. One constituent of the width of the nucleon; for more constituents pair_probability gives the mean over the constituents.')
c('C92','proved','C92_law C92_independent C92_each C92_attempts C92_joint','Ideal source (FreshSource). A run that is not completed (fuel for the rejection and retry loops) counts as outside every set; C94: the probability tends to zero with the fuel.')
c('C93','proved','C93_standard_error','Consequence of C92 (Chebyshev). Fuel as in C92.')
c('C94','proved','C94_collision C94_events C94_run C94_species example_terminates','Complements C62/C39 (runs that never end). The limit 6 w on b-min is the reach of two nucleons on the axes of their nuclei; for larger b-min up to the reach of the nuclei (C62) the statement is not proved.')
c('C95','proved','C95_contract C95_twister C95_zero C95_normal C95_positions C95_erase C95_run C95_exact C95_rounded','Model/LibRandom.lean models mt19937_64 as the C++ standard defines it (the model delivers the value the standard prescribes for the 10000th number) and the algorithms of libstdc++ (GCC 13): polar method, Marsaglia-Tsang, inversion of a piecewise linear density, Lemire, pairwise shuffle. Exact real arithmetic except for generate_canonical, which is bit exact. A rejection loop that never ends yields a fixed value in the model.')
c('C96','proved','C96_seeds C96_alive C96_temper','About the 64-bit numbers of the engine; generate_canonical keeps 53 bits of each.')
c('C97','proved','C97_independent C97_each C97_fresh C97_ideal C97_spherical C97_events C97_proton_proton','The model of libstdc++ (Model/LibRandom.lean) with the engine replaced by an ideal tape of independent uniform reals; 64-bit words are the first 64 binary digits of the same numbers. Real arithmetic. That mt19937_64 behaves like such a tape is not, and cannot be, proved.')
c('C98','proved','C98_constituent C98_weights C98_moments C98_thickness','Real arithmetic; the distributions of libstdc++ on an ideal engine (C97). For a single constituent narrower than the nucleon, and for widths that differ by less than 1e-6, the sampling width is 0 and the nucleon has the width of its constituents: not covered by KeepsWidth.')
c('C99','proved','C99_shuffle C99_orders C99_sampler','libstdc++ std::shuffle (pairs of positions from one number; the one-by-one variant for very long lists) and Lemire integers on an ideal engine.')
c('C100','proved','C100_collision C100_event C100_run C100_mean C100_library','Source of independent random numbers with symmetric normals (C100_library: libstdc++ on an ideal engine is one). C100_run and C100_mean ask for bounded normals, C100_event instead restricts to events whose constituents lie within any bound that keeps the grid indices inside int.')
c('C101','proved','C101_collision C101_event C101_run C101_mean C101_identical','Source of independent random numbers with symmetric normals (C100_library: libstdc++ on an ideal engine is one). C101_run and C101_mean ask for bounded normals, C101_event instead restricts to events whose constituents lie within any bound that keeps the grid indices inside int.')
c('C102','proved','C102_pairs C102_glauber C102_total C102_bound C102_protons C102_scaling C102_events C102_sampled C102_options C102_isotropic C102_library','Source of independent random numbers, exact real arithmetic. The factors sampled are the probabilities that the rejection loops of the nuclei end within the given number of tries: 1 for protons, spherical nuclei and files, tending to 1 for the others (C102_sampled). The isotropy of the pair probability that the general theorems ask for is proved for libstdc++ and any substructure (C102_isotropic, used in C102_library) and for any source without substructure (C102_options).')
c('C103','proved','C103_root_finder C103_fit C103_reproduces C103_fails C103_proton_proton C103_monte_carlo boostToms_lawful boostToms_bracketing boostToms_safe','Model/Toms748.lean is a model of the algorithm of Boost (toms748_solve.hpp), in exact real arithmetic. boostToms_lawful, _bracketing and _safe show that it meets the contracts that C10, C75 and C61 ask for.')
c('C104','proved','C104_positions C104_point C104_wounded C104_point_nuclei C104_collision C104_cross_section C104_npart C104_monotone','Quiet, wounded, spared, pairProduct, pass, positionMean in Props/Wounded.lean are the specification. An attempt that does not collide has no participants; attempts whose rejection sampling exceeds rfuel count as 0 on both sides.')
c('C105','proved','C105_weight C105_positions C105_mean C105_counts C105_events','setWeight, unitWeights, AffineInWeights, eventLaw are the specification. Events whose rejection sampling exceeds rfuel, or with no collision in the given number of attempts, count as 0 on both sides.')
c('C106','proved','C106_variance C106_probability C106_events C106_limit','Ideal engine with the library distributions (libMix), real arithmetic.')
c('C107','proved','C107_spellings C107_groups C107_results C107_mistakes C107_order','Model of the parser of Boost.Program_options (unix style) with the option table of trento.cxx; the documented table and spellings are in Spec/CommandLine.lean. That a long option in the place of a value is taken as the value is shown as an example.')
c('C108','proved','C108_syntax C108_values C108_broken C108_reported C108_broken_exit C108_empty_header_ub','Model of po::parse_config_file. The header [] is undefined behaviour of the library (C108_empty_header_ub); without one every refused run ends in exit status 1 with a message (C108_reported).')
c('C109','proved','C109_texts C109_round_trip C109_options','Model of boost::lexical_cast for signed integers. random-seed -1 and below mean automatic (C63).')
c('C110','proved','C110_texts C110_options C110_special_values C110_special_runs C110_nan_passes C110_nan_never_ends C110_inf_never_ends C110_grid','Model of boost::lexical_cast<double> (inf_nan.hpp, converter_lexical_streams.hpp) and of num_get in libstdc++.')
c('C111','proved','C111_geometry C111_thickness C111_normalization C111_reduced_thickness','SameThickness spells out the fields that agree. C111_geometry and C111_thickness hold for any arithmetic and random source; the last two for exact reals.')
c('C112','proved','C112_thickness_integral_le C112_thickness_integral_ge C112_multiplicity_le C112_multiplicity_ge C112_grid_choice','Exact arithmetic. Bounds include the cut at five widths and the error of the fast exponential. Steps above the constituent width are outside the statement.')
c('C113','proved','C113_mean_le C113_wounded','The events counted in C113_wounded are chosen by positions only; all other events count zero on both sides.')
c('C114','proved','C114_mean C114_convergence C114_limit','Negative p is not included: the code sets the mean to zero below a thickness of 1e-12, which makes it not concave there (by at most the threshold values).')
c('C115','proved','C115_normalization C115_weights C115_eccentricity C115_centre C115_mean C115_floors','in exact real arithmetic; the floors of 1e-12 are the hypotheses KeepsFloor and KeepsShape, and C115_floors shows that they cannot be dropped')
c('C116','proved','C116_participate C116_event C116_run','exact real arithmetic; the cross section parameter is a parameter of the theorem (its fit is C10, C103); radii of species other than p are fixed in fm, so the run statement is for protons, the event statement for any nucleons')
c('C117','proved','C117_event C117_inside C117_run','exact real arithmetic (with rounding the cell centres of the two grids differ in the last bits); grid-max raised by other amounts shifts the cell centres, hence the restriction to whole steps; "multiplicity can only grow" for a nonnegative normalization')
c('C118','proved','C118_event','exact real arithmetic; a displacement by a fraction of a cell samples the thickness at other points and is not covered')
c('C119','proved','C119_spectators C119_order C119_superposition C119_growth','order and superposition: exact real arithmetic (floating-point addition is not associative); number of participants is C23; nonnegative weights (as drawn) are assumed in the two exact statements')
c('C120','proved','C120_attempt C120_events C120_split','exact real arithmetic; random numbers as in C89/C90 (a fresh source, provided for the library by C97); the cross section parameter is the same in both runs')
c('C121','proved','C121_prefix C121_failure C121_program','events as delivered to the writers; the text output pads the event number according to the number of events asked for (C41), so the lines may differ in white space; C121_program is for exact arithmetic and two runs started with the same files and random state')
