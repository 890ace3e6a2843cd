{"id": "C01", "title": "Fast exponential is accurate and memory safe over its whole range", "statement": "For every table built with xmin < xmax and at least two points, evaluating FastExp at any x in [xmin, xmax] reads inside the table, never overestimates exp(x), and underestimates it by a relative error of at most dx^2/8*exp(dx/2), where dx is the tabulation step; at tabulated points it is exact.", "quantifier": "every xmin < xmax, every number of points >= 2, every x in [xmin, xmax] (exact real arithmetic)", "why_tests_cant": "the unit test samples 1000 points of one table; the range is a continuum", "anchors": ["src/fast_exp.h:FastExp::FastExp", "src/fast_exp.h:FastExp::operator()"]}
{"id": "C02", "title": "Fast exponential outside its range", "statement": "For an argument outside [xmin, xmax] a debug build always throws std::out_of_range and a release build never throws; far enough outside (half a step above xmax, one and a half steps below xmin) a release build executes undefined behaviour (bad conversion or read past the table).", "quantifier": "every table and every x outside the range, both build types", "why_tests_cant": "a test can probe one point and cannot observe undefined behaviour", "anchors": ["src/fast_exp.h:FastExp::operator()"]}
{"id": "C03", "title": "Nucleon thickness is a truncated sum of Gaussians", "statement": "For every participant nucleon and every point, NucleonCommon::thickness is non-negative, is exactly zero when the point is at least 5 constituent widths from every constituent, and lies within the fast-exponential relative error below the ideal sum of truncated Gaussians with prefactor 1/(2 pi v^2 m); it never executes undefined behaviour or throws.", "quantifier": "all widths v > 0, all constituent lists with non-negative fluctuations, all points (exact real arithmetic)", "why_tests_cant": "continuum of positions, widths and fluctuation values", "anchors": ["src/nucleon.h:NucleonCommon::thickness", "src/nucleon.cxx:NucleonCommon::NucleonCommon"]}
{"id": "C04", "title": "Boundary is the tight bounding box of the constituent discs", "statement": "NucleonCommon::boundary returns {xmin, xmax, ymin, ymax} such that every disc of radius 5v around a constituent lies in the box, and each side is touched by some constituent; thickness is zero outside the box. With no constituents the call is undefined behaviour.", "quantifier": "every non-empty constituent list (any order, duplicates), every width", "why_tests_cant": "the single-pass if / else-if min-max logic depends on the order of an arbitrary list", "anchors": ["src/nucleon.h:NucleonCommon::boundary"]}
{"id": "C05", "title": "Participation flags change only together and only upwards", "statement": "One call of participate(A, B) either returns true and leaves both nucleons participants, or returns false and leaves both participant flags as they were; it never clears a flag, never moves a nucleon, and never alters constituents that already exist.", "quantifier": "every pair of nucleon states, every random state, every arithmetic (including NaN)", "why_tests_cant": "quantifies over all reachable nucleon states and random outcomes", "anchors": ["src/nucleon.h:NucleonCommon::participate", "src/nucleon.h:NucleonCommon::set_participant"]}
{"id": "C06", "title": "Nucleons further apart than the maximum impact never participate", "statement": "If the transverse distance of two nucleons that are not both already participants exceeds 6 nucleon widths, participate returns false, draws no random number and changes nothing.", "quantifier": "every pair of positions, every random state", "why_tests_cant": "the unit test tries one random distance", "anchors": ["src/nucleon.h:NucleonCommon::participate", "src/nucleon.h:NucleonCommon::max_impact"]}
{"id": "C07", "title": "Participation probability is 1 - exp(-sigma_gg T_AB)", "statement": "For nucleons in range that are tested, participate returns true exactly for those uniform random numbers u with u > exp(-sigma*T_AB), where T_AB = (1/m^2) * sum over constituent pairs of exp(-d^2/(4 v^2))/(4 pi v^2); hence the acceptance probability over u uniform in [0,1) is exactly 1 - exp(-sigma*T_AB), which lies in [0,1).", "quantifier": "all constituent configurations, sigma >= 0, v > 0, m >= 1", "why_tests_cant": "probability statements over a continuum; tests only sample", "anchors": ["src/nucleon.h:NucleonCommon::participate", "doc/internals.rst"]}
{"id": "C08", "title": "Constituents are recentred on the nucleon", "statement": "After constituents are sampled, a nucleon has exactly m constituents, their centre of mass coincides with the nucleon's transverse position, and for m = 1 the constituent sits exactly at the nucleon position; sampling is done at most once between two position updates.", "quantifier": "every m >= 1, every nucleon position and every sequence of random numbers", "why_tests_cant": "continuum of draws; any m", "anchors": ["src/nucleon.h:NucleonCommon::sample_constituent_positions", "doc/usage.rst"]}
{"id": "C09", "title": "Constituent sampling width reproduces the nucleon width", "statement": "For accepted width/number combinations with w - v >= 1e-6 and m >= 2, the sampling width r satisfies r >= 0 and r^2 (1 - 1/m) + v^2 = w^2, so averaged over samples the recentred constituents have variance w^2 - v^2 about the nucleon position; otherwise (one constituent or equal sizes) r = 0.", "quantifier": "all widths w >= v > 0, all m", "why_tests_cant": "an ensemble average cannot be established by finitely many samples", "anchors": ["src/nucleon.cxx:calc_sampling_width", "doc/usage.rst"]}
{"id": "C10", "title": "Fitted cross-section parameter reproduces sigma_NN", "statement": "A value x solves the equation handed to the root finder if and only if with sigma_gg = 4 pi w^2 exp(x) the integral over 0 <= b <= 6w of 2 pi b (1 - exp(-sigma_gg T_AB(b))) equals the requested inelastic cross section; the left-hand side is strictly increasing so the solution is unique.", "quantifier": "all w > 0, all sigma_NN, all x", "why_tests_cant": "integral identity over a continuum", "anchors": ["src/nucleon.cxx:analytic_partonic_cross_section", "doc/internals.rst"]}
{"id": "C11", "title": "Species table", "statement": "Nucleus::create accepts exactly the documented symbols (p, d, Cu, Cu2, Xe, Xe2, Au, Au2, Pb, U, U2, U3) and HDF5-like file names, gives each symbol its documented number of nucleons, deformed pairs share R and a with their spherical version, and every other string throws std::invalid_argument.", "quantifier": "every string", "why_tests_cant": "infinitely many strings", "anchors": ["src/nucleus.cxx:Nucleus::create", "doc/usage.rst"]}
{"id": "C12", "title": "Sampling resets and preserves the ensemble", "statement": "After sample_nucleons the number of nucleons is unchanged, no nucleon is a participant and none has sampled constituents, whatever the state before the call.", "quantifier": "every nucleus type, every previous state, every offset and random state", "why_tests_cant": "quantifies over all histories of events on a reused nucleus object", "anchors": ["src/nucleus.cxx:Nucleus::sample_nucleons", "src/nucleon.h:NucleonData::set_position"]}
{"id": "C13", "title": "The offset is a pure translation in x", "statement": "Sampling with offset b from a given random state gives the same nucleons as sampling with offset 0 from that state, with b added to every x coordinate, and leaves the random generator in the same state.", "quantifier": "every nucleus type, offset and random state (exact real arithmetic)", "why_tests_cant": "relates two runs for every offset, including the min-distance retry loop", "anchors": ["src/nucleus.cxx:Nucleus::set_nucleon_position", "src/nucleus.cxx:WoodsSaxonNucleus::sample_nucleons_impl", "src/nucleus.cxx:DeformedWoodsSaxonNucleus::sample_nucleons_impl"]}
{"id": "C14", "title": "Woods-Saxon radii are kept under angular resampling", "statement": "After sampling a (deformed) Woods-Saxon nucleus, the distances of the nucleons from the nucleus centre, read in iteration order, are exactly the sampled radii sorted in increasing order, however many angular retries were needed.", "quantifier": "every nucleus parameter set, offset, minimum distance and random state", "why_tests_cant": "retry counts and random draws are unbounded combinations", "anchors": ["src/nucleus.cxx:WoodsSaxonNucleus::sample_nucleons_impl", "src/nucleus.cxx:DeformedWoodsSaxonNucleus::sample_nucleons_impl"]}
{"id": "C15", "title": "Minimum nucleon-nucleon distance", "statement": "If no nucleon exhausted its 1000 placement attempts (and dmin^2 >= 1e-10), every pair of nucleons of a Woods-Saxon nucleus is at least dmin apart in three dimensions; placement never makes more than 1000 attempts per nucleon.", "quantifier": "every parameter set, dmin and random state, spherical and deformed", "why_tests_cant": "pairwise claim over all nuclei and draws; the unit test even only checks Pb", "anchors": ["src/nucleus.cxx:MinDistNucleus::is_too_close", "src/nucleus.cxx:WoodsSaxonNucleus::sample_nucleons_impl"]}
{"id": "C16", "title": "Random rotations are proper rigid rotations", "statement": "The tilt/spin rotation of deformed nuclei and the three-angle Euler rotation of manually read nuclei are given by orthogonal matrices of determinant one, hence preserve all pairwise distances; a manual nucleus after sampling is a rigid rotation of one stored configuration plus the x offset.", "quantifier": "all angles, all positions, all configuration files", "why_tests_cant": "continuum of angles", "anchors": ["src/nucleus.cxx:DeformedWoodsSaxonNucleus::sample_nucleons_impl", "src/nucleus.cxx:ManualNucleus::sample_nucleons_impl"]}
{"id": "C17", "title": "Deuteron geometry and Hulthen rejection sampling", "statement": "The two nucleons of a deuteron are antipodal about its centre; for a uniform u in (0,1) the acceptance probability lies in [0,1) and multiplied by the exponential envelope density is proportional to (exp(-a r) - exp(-b r))^2, so accepted radii follow the Hulthen distribution; the roles of (a, b) are interchangeable.", "quantifier": "all a, b > 0, all random states", "why_tests_cant": "distributional identity over a continuum", "anchors": ["src/nucleus.cxx:Deuteron::sample_nucleons_impl", "src/nucleus.cxx:Deuteron::Deuteron"]}
{"id": "C18", "title": "Sampled nucleon positions are finite numbers, except for a deuteron drawn from an exact zero", "statement": "For every nucleus other than the deuteron and every sequence of uniform random numbers in [0,1) every sampled nucleon coordinate is a finite number. A sampled deuteron has finite coordinates exactly if the accepted radius proposal did not start from the uniform number 0; a proposal starting from 0 has an infinite radius and the acceptance probability NaN, is always accepted, and makes the longitudinal coordinate of both nucleons infinite or NaN.", "quantifier": "every nucleus type and history, every random sequence, IEEE special values included", "why_tests_cant": "the offending draw has probability ~2^-64 and is never hit by tests", "anchors": ["src/nucleus.cxx:Deuteron::sample_nucleons_impl", "src/random.h:canonical"]}
{"id": "C19", "title": "Manual nucleus files are validated", "statement": "The outcome of ManualNucleus::create is decided by the file content: it accepts a file exactly if it exists, is valid HDF5 and holds exactly one object which is a dataset of shape (nconfigs, A, 3) with A >= 1; a single dataset of rank above 3 or of shape (nconfigs, 0, 3) is undefined behaviour; every other file throws std::invalid_argument. The accepted nucleus has as many nucleons as the second dimension and its radius is the maximum distance found in the configurations scanned (at least 500 nucleons or all).", "quantifier": "every file content", "why_tests_cant": "unbounded space of files; memory safety of reading the shape of arbitrary rank", "anchors": ["src/nucleus.cxx:ManualNucleus::create", "src/hdf5_utils.cxx:try_open_file"]}
{"id": "C20", "title": "Grid geometry", "statement": "The grid is square with N = ceil(2*max/step) cells per side, covers at least [-max, max], exceeds it by less than half a step on each side, and its cell centres are symmetric about the origin.", "quantifier": "every max > 0, step > 0", "why_tests_cant": "continuum of configurations", "anchors": ["src/event.cxx:Event::Event", "doc/usage.rst"]}
{"id": "C21", "title": "Thickness grid equals direct summation", "statement": "After compute, each cell of the thickness grid of a nucleus equals the sum over its participant nucleons of the nucleon thickness at the cell centre: depositing each nucleon only on a clipped subgrid loses nothing and double counts nothing, also for nucleons partly or wholly off the grid.", "quantifier": "every grid, every nucleus, every constituent arrangement (exact real arithmetic)", "why_tests_cant": "the unit test compares one configuration up to 1e-5", "anchors": ["src/event.cxx:Event::compute_nuclear_thickness", "src/event.cxx:clip"]}
{"id": "C22", "title": "Thickness deposition never leaves the grid", "statement": "For every grid with at least one cell, every write of the deposition loops addresses an existing cell, provided the float-to-int index conversions are in range; with a zero-cell grid an out-of-bounds write is possible.", "quantifier": "every grid size >= 1, every boundary value, every arithmetic including NaN-free IEEE", "why_tests_cant": "memory safety for all inputs", "anchors": ["src/event.cxx:Event::compute_nuclear_thickness", "src/event.cxx:clip"]}
{"id": "C23", "title": "npart counts participants", "statement": "After compute, npart equals the number of participant nucleons of both nuclei, in particular 0 <= npart <= A + B.", "quantifier": "every pair of nuclei, every previous event state", "why_tests_cant": "all states and histories", "anchors": ["src/event.cxx:Event::compute", "src/event.cxx:Event::compute_nuclear_thickness"]}
{"id": "C24", "title": "Events are independent of the event object's history", "statement": "Computing an event gives the same npart, multiplicity, eccentricities and grid whatever events were computed before with the same Event object.", "quantifier": "every previous history of compute calls, every arithmetic", "why_tests_cant": "unbounded histories", "anchors": ["src/event.cxx:Event::compute", "src/event.cxx:Event::compute_reduced_thickness", "src/event.cxx:Event::compute_observables"]}
{"id": "C25", "title": "Reduced thickness is the generalized mean", "statement": "For every p the reduced thickness of a cell equals norm times the generalized mean M_p(TA, TB) of the documentation; for equal thicknesses it is norm*TA, it lies between norm*min and norm*max for norm >= 0, and vanishes for p <= 0 wherever one thickness vanishes. (For p < 0 thicknesses below 1e-12 count as zero; |p| < 1e-12 counts as zero.)", "quantifier": "all p, norm >= 0, all non-negative thicknesses", "why_tests_cant": "continuum", "anchors": ["src/event.cxx:positive_pmean", "src/event.cxx:negative_pmean", "src/event.cxx:geometric_mean", "src/event.cxx:Event::Event"]}
{"id": "C26", "title": "Generalized mean is monotone and continuous in p", "statement": "For fixed thicknesses, the reduced thickness of each cell, and hence the multiplicity, is non-decreasing in p, and as p tends to zero from either side it tends to the geometric mean used at p = 0.", "quantifier": "all p <= q, all thicknesses (at least 1e-12 in the negative branch)", "why_tests_cant": "power-mean inequality over a continuum", "anchors": ["src/event.cxx:positive_pmean", "src/event.cxx:negative_pmean", "src/event.cxx:geometric_mean"]}
{"id": "C27", "title": "Multiplicity is the integrated reduced thickness", "statement": "The multiplicity equals the cell area times the sum of all reduced thickness cells, is non-negative for norm >= 0 and scales linearly with norm.", "quantifier": "every event", "why_tests_cant": "all grids", "anchors": ["src/event.cxx:Event::compute_reduced_thickness"]}
{"id": "C28", "title": "Eccentricities are the documented harmonics", "statement": "For n = 2..5 the reported eccentricity equals |sum t z^n| / max(sum t |z|^n, 1e-12), with z = x + i y the cell position relative to the thickness-weighted centre of mass and the sums over the cells with t >= 1e-12.", "quantifier": "every grid, every centre of mass", "why_tests_cant": "polynomial identities over a continuum; test checks three random events", "anchors": ["src/event.cxx:Event::compute_observables"]}
{"id": "C29", "title": "Eccentricities lie in [0, 1]", "statement": "Every reported eccentricity is at least 0 and at most 1.", "quantifier": "every event (exact real arithmetic)", "why_tests_cant": "inequality for all grids", "anchors": ["src/event.cxx:Event::compute_observables"]}
{"id": "C30", "title": "Symmetry of event observables under reflections and transposition", "statement": "Mirroring the reduced thickness grid in x or in y or exchanging x and y leaves multiplicity and all eccentricities unchanged and maps the centre of mass accordingly.", "quantifier": "every grid", "why_tests_cant": "all grids", "anchors": ["src/event.cxx:Event::compute_reduced_thickness", "src/event.cxx:Event::compute_observables"]}
{"id": "C31", "title": "Exchanging projectile and target leaves the event unchanged", "statement": "Computing an event with the two nuclei exchanged gives the same npart, grid, multiplicity and eccentricities.", "quantifier": "every pair of nuclei, every arithmetic with commutative addition and multiplication", "why_tests_cant": "all pairs of nuclei", "anchors": ["src/event.cxx:Event::compute"]}
{"id": "C32", "title": "An event without overlap on the grid has zero eccentricities, not NaN", "statement": "If every reduced thickness cell is below 1e-12 (so the centre of mass may be 0/0), all four eccentricities are exactly 0 and the multiplicity is a number.", "quantifier": "every such grid, with IEEE NaN semantics", "why_tests_cant": "NaN propagation depends on control flow for every grid", "anchors": ["src/event.cxx:Event::compute_observables", "src/event.cxx:Event::compute_reduced_thickness"]}
{"id": "C33", "title": "Impact parameter range and distribution", "statement": "With 0 <= b-min <= b-max every event has b-min <= b <= b-max, with equal limits b is exactly that value, and for u uniform P(b <= beta) = (beta^2 - bmin^2)/(bmax^2 - bmin^2).", "quantifier": "all limits, all random numbers in [0,1)", "why_tests_cant": "distribution over a continuum", "anchors": ["src/collider.cxx:Collider::sample_collision"]}
{"id": "C34", "title": "Impact parameter is apportioned between the nuclei", "statement": "The two nuclei are offset along x by amounts whose difference is exactly b, each offset has magnitude at most b, two equal-radius nuclei are offset by +b/2 and -b/2, and a point-like nucleus paired with a large one is not offset.", "quantifier": "all radii >= 0, all b >= 0", "why_tests_cant": "continuum", "anchors": ["src/collider.cxx:determine_asym", "src/collider.cxx:Collider::sample_collision"]}
{"id": "C35", "title": "Default maximum impact parameter is minimum bias", "statement": "With a negative b-max the range extends to rA + rB + 6w, and no pair of nucleons lying within the nuclear radii could participate at any larger impact parameter; a non-negative b-max is used as given.", "quantifier": "all configurations and positions", "why_tests_cant": "continuum", "anchors": ["src/collider.cxx:determine_bmax"]}
{"id": "C36", "title": "Every event has a collision and consistent participants", "statement": "Every event handed to the output contains at least one participant in each nucleus (npart >= 2), and every participant nucleon has a collision partner in the other nucleus within 6 nucleon widths that is also a participant.", "quantifier": "every configuration, every number of rejected attempts, every random state", "why_tests_cant": "unbounded retry loop and all draws", "anchors": ["src/collider.cxx:Collider::sample_collision", "src/nucleon.h:NucleonCommon::participate"]}
{"id": "C37", "title": "Binary collision count", "statement": "With --ncoll the reported ncoll is the number of nucleon pairs that collided in the accepted attempt (rejected attempts contribute nothing), so npart/2 <= ncoll <= A*B and ncoll >= 1; without --ncoll it is 0.", "quantifier": "every configuration and random state", "why_tests_cant": "unbounded retry loop", "anchors": ["src/collider.cxx:Collider::sample_collision"]}
{"id": "C38", "title": "Seeded runs are reproducible", "statement": "With random-seed > 0 the complete output of a run is a function of the configuration and of the fitted cross-section parameter: it does not depend on the prior state of the random engine or on how many random numbers were consumed before.", "quantifier": "every prior engine state, every configuration", "why_tests_cant": "all prior states", "anchors": ["src/collider.cxx:Collider::Collider", "src/random.cxx:engine"]}
{"id": "C39", "title": "Impossible impact parameter ranges never terminate", "statement": "For proton-proton collisions with b-min > 6 nucleon widths (b-max >= b-min) event sampling never returns: no number of attempts yields an event.", "quantifier": "every random sequence and number of attempts", "why_tests_cant": "non-termination cannot be tested", "anchors": ["src/collider.cxx:Collider::sample_collision"]}
{"id": "C40", "title": "Each event is output once, in order", "statement": "run_events with N events calls every configured writer exactly N times, with event numbers 0, 1, ..., N-1 in order, each with the impact parameter and ncoll of that event; for N <= 0 nothing is output.", "quantifier": "every N, every set of writers, every random state", "why_tests_cant": "all N", "anchors": ["src/collider.cxx:Collider::run_events", "src/output.h:Output::operator()"]}
{"id": "C41", "title": "Event numbering width and file names", "statement": "For N >= 1 events the text file names are pairwise distinct, all have the same length (for N > 1), and their lexicographic order is the event order; the width is the number of digits of N-1 for N > 1.", "quantifier": "every N and every pair of event numbers below N", "why_tests_cant": "all N", "anchors": ["src/output.cxx:Output::Output", "src/output.cxx:write_text_file"]}
{"id": "C42", "title": "Standard output lines have separable fields", "statement": "Every line printed for an event splits at blanks into exactly 8 fields (9 with ncoll) in the documented order: event number, b, npart, [ncoll,] mult, e2..e5, provided b < 1000, npart < 10^4, ncoll < 10^5, 0 <= e_n < 100 and the multiplicity prints in fewer than 18 characters; these bounds hold for all built-in species.", "quantifier": "all events and all values within the bounds", "why_tests_cant": "all values of all columns; adjacent columns merge silently when too wide", "anchors": ["src/output.cxx:write_stream"]}
{"id": "C43", "title": "Printed values identify the event values", "statement": "Reading back the fixed-point columns gives the printed quantity up to half a unit of the tenth decimal.", "quantifier": "all values", "why_tests_cant": "continuum", "anchors": ["src/output.cxx:write_stream"]}
{"id": "C44", "title": "Existing data is never overwritten", "statement": "Constructing the output and writing any number of events never removes, truncates or modifies any file that had content before; a non-empty output directory or existing non-empty HDF5 file makes construction throw without touching the file system.", "quantifier": "every file system state, every path, every number of events", "why_tests_cant": "all file system states", "anchors": ["src/output.cxx:Output::Output", "src/output.cxx:write_text_file", "src/output.cxx:HDF5Writer"]}
{"id": "C45", "title": "Accepted output paths receive every event", "statement": "If output construction for a text directory succeeds, all N events are output without error; the directory then contains exactly those of the N event files which the system lets the program open (all N if every open succeeds), each with its event - unless the path was an existing file: then it was empty, it is left alone and no event is stored anywhere.", "quantifier": "every initial file system state", "why_tests_cant": "all file system states", "anchors": ["src/output.cxx:Output::Output", "src/output.cxx:write_text_file"]}
{"id": "C46", "title": "ncoll column is present exactly with --ncoll", "statement": "In all output formats the ncoll entry is present for every event of a run with --ncoll and absent for every event of a run without it, so all lines of a run have the same number of columns.", "quantifier": "every run", "why_tests_cant": "all runs", "anchors": ["src/output.cxx:write_stream", "src/output.cxx:write_text_file", "src/output.cxx:HDF5Writer::operator()", "src/collider.cxx:Collider::sample_collision"]}
{"id": "C47", "title": "Text grid layout", "statement": "The grid part of a text event file has exactly N lines of exactly N blank-separated entries, the entry in line i, column j being cell (iy, ix) = (i, j); writing is free of undefined behaviour exactly if N is not 1.", "quantifier": "every grid size and content", "why_tests_cant": "loop structure for all sizes including 0 and 1", "anchors": ["src/output.cxx:write_text_file"]}
{"id": "C48", "title": "--no-header only removes the header", "statement": "For the same event the text file written with --no-header is the file written without it minus the leading '#' lines exactly if every cell prints the same with six and with ten significant digits: below a header ten digits are printed, without one six.", "quantifier": "every event", "why_tests_cant": "relates two runs for all events", "anchors": ["src/output.cxx:write_text_file"]}
{"id": "C49", "title": "HDF5 events", "statement": "Each event is stored in its own dataset event_<n>; names are distinct for distinct event numbers, the stored shape equals the grid shape and the attributes are exactly b, npart, (ncoll,) mult, e2, e3, e4, e5 with the event's values.", "quantifier": "every event sequence", "why_tests_cant": "all sequences", "anchors": ["src/output.cxx:HDF5Writer::operator()"]}
{"id": "C50", "title": "Cross section cache lookups are sound", "statement": "A cached value is used only if the stored constituent number equals and the stored widths and cross section agree within 1e-6 with the configuration; it is then the value stored with the first such record; otherwise a new value is computed and exactly one record is appended.", "quantifier": "every well-formed cache content and configuration", "why_tests_cant": "all cache histories", "anchors": ["src/nucleon.cxx:partonic_cross_section", "src/nucleon.cxx:almost_equal"]}
{"id": "C51", "title": "Cache write/read round trip and stability over histories", "statement": "For parameters below 100, a record written by one run is found by every later run with the same parameters, and after any sequence of runs with any parameters all later runs with the same parameters use one and the same value.", "quantifier": "every history of runs, every parameter values below the column width", "why_tests_cant": "unbounded histories; text formatting of all values", "anchors": ["src/nucleon.cxx:partonic_cross_section"]}
{"id": "C52", "title": "Cache survives crashes and failed fits", "statement": "With an existing cache: if a run fails or is killed at any point before a character of its record reaches the file, nothing has changed; if all characters have, later runs behave as after a complete run; and wherever it is killed, also inside the record, later runs still get every value the cache held before. Exceptions, exactly described: an interrupted first run leaves an empty file on which every later run is undefined; a torn record can lend another configuration's value or a truncated value to a later run.", "quantifier": "every crash point", "why_tests_cant": "crash points cannot be enumerated by unit tests", "anchors": ["src/nucleon.cxx:partonic_cross_section"]}
{"id": "C53", "title": "Cache reading terminates", "statement": "Reading the cache ends (with a value, without one, or by using an uninitialised variable) within one pass per character plus one, unless it meets something that is not a number before it has found a record: then it never ends. For a file of complete records it ends with the value of the first fitting record.", "quantifier": "every file content", "why_tests_cant": "non-termination on arbitrary content", "anchors": ["src/nucleon.cxx:partonic_cross_section"]}
{"id": "C54", "title": "Monte Carlo cross section estimate", "statement": "The Monte Carlo cross section returns or throws std::out_of_range after 10^7 samples. If it returns after N samples, N > 10002, the value is pi*bmax^2*(1 - S/(N-1)) with S the sum of the N sampled miss probabilities, each in (0,1]; hence it is at most pi*bmax^2, within pi*bmax^2/10000 of (and strictly below) pi*bmax^2*(1 - mean), and the last 10001 estimates stayed within 0.001 of one value.", "quantifier": "every random sequence", "why_tests_cant": "all sequences", "anchors": ["src/nucleon.cxx:MonteCarloCrossSection::operator()"]}
{"id": "C55", "title": "Cyclic normal sampler draws from a fixed sample", "statement": "Every number returned is one of the cached quantiles of the normal distribution, which are symmetric about the mean; in every complete pass over the cache each cached value is returned exactly once, except in the passes whose number is a positive multiple of loops+1: there the first value is that of one order and the others are those of another order but its first.", "quantifier": "every cache size >= 1, loop count, random state and number of draws", "why_tests_cant": "unbounded draw sequences", "anchors": ["src/random.h:CyclicNormal"]}
{"id": "C56", "title": "Option precedence", "statement": "An option given on the command line overrides every config file; among config files the first one given on the command line that sets the option wins; otherwise the default applies.", "quantifier": "every combination of sources", "why_tests_cant": "all combinations", "anchors": ["src/trento.cxx:main"]}
{"id": "C57", "title": "Parameter validation", "statement": "The program runs events only if both widths are non-negative, the constituent width does not exceed the nucleon width, and a single constituent has the nucleon's width; an unspecified constituent width equals the nucleon width.", "quantifier": "all option values", "why_tests_cant": "continuum", "anchors": ["src/trento.cxx:main"]}
{"id": "C58", "title": "Exit behaviour", "statement": "help, version and bibtex print and exit with status 0 without running events, with priority in that order; a missing or wrong number of projectiles, an unacceptable command line or configuration, or any exception derived from std::exception gives status 1 with a message on standard error and no output beyond the events already written; an exception of the HDF5 library is not caught and terminates the process; otherwise the status is 0 after all events were output.", "quantifier": "every command line", "why_tests_cant": "all command lines", "anchors": ["src/trento.cxx:main"]}
{"id": "C59", "title": "HDF5 file name detection", "statement": "A path is treated as HDF5 exactly if its final component has one of the extensions .hdf5, .hdf, .hd5, .h5 (case sensitive).", "quantifier": "every path string", "why_tests_cant": "infinitely many strings", "anchors": ["src/hdf5_utils.cxx:filename_is_hdf5"]}
{"id": "C60", "title": "Only the tested pairs' randomness matters: ncoll does not change participants", "statement": "For the same nucleon positions, the same constituents and the same random number attached to each nucleon pair, the set of participants is the same with and without --ncoll.", "quantifier": "every nuclei, every assignment of random numbers to pairs", "why_tests_cant": "relates two runs for all inputs", "anchors": ["src/nucleon.h:NucleonCommon::participate", "src/collider.cxx:Collider::sample_collision"]}
{"id": "C61", "title": "Built-in configurations run without undefined behaviour", "statement": "With any built-in species, valid parameters (0 < v <= w, m >= 1, positive grid step and at least two grid cells, moderate coordinates) no step of generating and writing an event executes undefined behaviour or throws.", "quantifier": "every valid configuration and random state (exact real arithmetic)", "why_tests_cant": "all runs", "anchors": ["src/collider.cxx", "src/event.cxx", "src/nucleon.h", "src/nucleus.cxx", "src/output.cxx"]}
{"id": "C62", "title": "Out-of-reach impact parameters never terminate", "statement": "For any pair of nuclei whose nucleons all lie within transverse distances RA and RB of their centres, a run with N >= 1 events and b-min > RA + RB + 6 nucleon widths (b-max >= b-min) never returns an event; RA and RB are the bounds given for each species.", "quantifier": "all species, all random states, all parameters (exact real arithmetic)", "why_tests_cant": "non-termination cannot be observed by a test", "anchors": ["src/collider.cxx:Collider::sample_collision", "src/nucleus.cxx"]}
{"id": "C63", "title": "A run has at most one outcome", "statement": "The outcome of a run (the list of events, an exception, or undefined behaviour) is determined by configuration, cross-section parameter and initial random state alone: once some number of loop iterations suffices to reach an outcome, every larger number gives the same outcome.", "quantifier": "every configuration, random state and arithmetic", "why_tests_cant": "quantifies over all runs of unbounded length", "anchors": ["src/collider.cxx:Collider::run_events", "src/nucleus.cxx"]}
{"id": "C64", "title": "A successful run does what its options say", "statement": "If the program exits with status 0 after a valid configuration, then the two projectiles named first and second, the grid, the reduced-thickness parameter, the cross section, the widths, the constituent number, the fluctuation parameter, the minimum distance, the impact parameter range, the seed, the ncoll switch and the number of events used are exactly the stored option values, every event was handed to every writer once and in order, and no other exit path was taken.", "quantifier": "every command line, configuration file, file system, environment and random state", "why_tests_cant": "all configurations and histories", "anchors": ["src/trento.cxx:main", "src/collider.cxx:Collider::Collider", "src/output.cxx:Output::Output"]}
{"id": "C65", "title": "The program only adds to the file system", "statement": "Whatever the outcome of the program (success, exception, undefined behaviour, non-termination cut off at any point of the loops), every file and directory that existed before still exists with the same content, with one exception: text appended to the cross section cache file.", "quantifier": "every command line, file system, environment and random state", "why_tests_cant": "all histories including failing ones", "anchors": ["src/trento.cxx:main", "src/output.cxx", "src/nucleon.cxx:partonic_cross_section"]}
{"id": "C66", "title": "A seeded program run is reproducible", "statement": "With a positive random seed and a cross section parameter which does not depend on the random state (no constituents, or the cache answers), the exit status, standard output, standard error and the final file system do not depend on the state of the random engine at program start.", "quantifier": "every pair of initial random states, every command line and file system", "why_tests_cant": "relates two runs for all inputs", "anchors": ["src/trento.cxx:main", "src/collider.cxx:Collider::Collider", "src/nucleon.cxx:partonic_cross_section"]}
{"id": "C67", "title": "Standard output of a successful run", "statement": "Without --quiet, a successful run prints exactly one line per event, in order, and nothing else; reading the fields of a line gives the event number, impact parameter, npart, (ncoll,) multiplicity and eccentricities of that event at the printed precision; with --quiet nothing is printed.", "quantifier": "every successful run", "why_tests_cant": "all runs and all printed values", "anchors": ["src/trento.cxx:main", "src/output.cxx:write_stream"]}
{"id": "C68", "title": "Output files of a successful run", "statement": "A successful run of N events with a text output directory leaves exactly one file per event below the directory, with the documented name and content; with an HDF5 file name it leaves exactly one dataset per event, with distinct names.", "quantifier": "every successful run", "why_tests_cant": "all runs", "anchors": ["src/trento.cxx:main", "src/output.cxx", "src/hdf5_utils.cxx"]}
{"id": "C69", "title": "Constituents are Gaussian blobs with unit-mean gamma weights", "statement": "The first time a nucleon is tested for a collision, each constituent gets, in order, an x and a y displacement drawn from a normal distribution of mean zero and the sampling width and a weight drawn from a gamma distribution of mean one and variance 1/fluctuation; nothing else is drawn, and later tests redraw nothing.", "quantifier": "every parameter set and random state", "why_tests_cant": "quantifies over all random states", "anchors": ["src/nucleon.h:NucleonCommon::sample_constituent_positions", "src/nucleon.cxx:gamma_param_unit_mean"]}
{"id": "C70", "title": "Nucleon density profiles", "statement": "Nucleons of the documented spherical nuclei lie at radii drawn from the Woods-Saxon profile r^2/(1+exp((r-R)/a)) of the documented R and a (tabulated on [0, R+10a] in 1000 linear pieces); those of the documented deformed nuclei are accepted with a probability such that they fill space with the density 1/(1+exp((r-R(1+b2 Y20+b4 Y40))/a)); the cutoff radius lies at least 9.99 a beyond the half-density radius in every direction, and the reflection used on placement retries does not change the density.", "quantifier": "every documented nucleus, every state and random history, every direction", "why_tests_cant": "a distribution over a continuum and all random states", "anchors": ["src/nucleus.cxx:WoodsSaxonNucleus::WoodsSaxonNucleus", "src/nucleus.cxx:DeformedWoodsSaxonNucleus::deformed_woods_saxon_dist", "src/nucleus.cxx:DeformedWoodsSaxonNucleus::sample_nucleons_impl"]}
{"id": "C71", "title": "No NaN and no infinity in a run with valid options", "statement": "For finite options with positive constituent width, at least one constituent, non-zero fluctuation parameter and positive grid step, no division by zero, square root or logarithm of a negative number or other invalid operation affects a run: the impact parameter, every grid cell, the multiplicity and the eccentricities of every event are the finite values of exact arithmetic, and the run ends or fails exactly as in exact arithmetic (deuterons: if the generator never returns 0).", "quantifier": "every valid option set, projectile and random sequence, IEEE special values included (no rounding)", "why_tests_cant": "a NaN may appear only for one random sequence in 2^64 and spreads through comparisons that are then silently false", "anchors": ["src/collider.cxx:Collider::run_events", "src/event.cxx:Event::compute", "src/nucleon.h", "src/nucleus.cxx"]}
{"id": "C72", "title": "Zero constituents: no event is ever produced", "statement": "constit-number 0 is not rejected by the option validation; with it the collision probability of every nucleon pair is NaN and no pair ever participates, so a run of one or more events never delivers an event, whatever the other options and the random numbers are.", "quantifier": "every option set with constit-number 0, every random sequence", "why_tests_cant": "non-termination cannot be observed by a test", "anchors": ["src/nucleon.h:NucleonCommon::participate", "src/collider.cxx:Collider::sample_collision", "src/trento.cxx:main"]}
{"id": "C73", "title": "Processes sharing the cross section cache", "statement": "If the cache file holds at least one complete record, any number of processes may look up, fit and store concurrently, and be killed anywhere between two operations: the file then holds the old records followed by one complete record per completed fit, each process that finishes returns the value of the first fitting record it saw or its own fit, and all later runs with its parameters get one and the same value. Exception (finding): without a cache file, a process that looks while another one is still fitting reads an empty file and uses uninitialised variables.", "quantifier": "every number of processes, parameters, schedule of their file operations and stopping points", "why_tests_cant": "all interleavings of several processes", "anchors": ["src/nucleon.cxx:partonic_cross_section"]}
{"id": "C74", "title": "Processes writing output at the same time", "statement": "Processes whose output paths are not equal and not nested may run concurrently in any order of their file operations: a process that would succeed alone succeeds, prints the same and leaves the same files. Exception (finding): the check that the output directory is empty does not protect against a second process with the same directory; both can succeed, and all files then hold the events of one of them.", "quantifier": "every number of processes, options, initial file system and schedule of constructions and writer calls", "why_tests_cant": "all interleavings of several processes", "anchors": ["src/output.cxx:Output::Output", "src/output.cxx:write_text_file", "src/output.cxx:HDF5Writer"]}
{"id": "C75", "title": "The Monte Carlo fit uses the simulated collision probability", "statement": "With one constituent the cross section parameter is fitted semi-analytically without drawing random numbers; with two or more it is fitted by Monte Carlo, where every sampled miss probability is exp(-sigma*T_AB), the miss probability of the simulation, for two nucleons of m constituents at impact parameter 6 w sqrt(u), u in [0,1). A fit that returns sigma found sigma1 <= sigma2 in the search range whose Monte Carlo cross sections lie on different sides of (or at) the requested one, and sigma is their geometric mean.", "quantifier": "every width, constituent number, requested cross section, random state; every root finder that meets the documented contract of toms748_solve", "why_tests_cant": "the fit is random and its result depends on all samples", "anchors": ["src/nucleon.cxx:numeric_partonic_cross_section", "src/nucleon.cxx:MonteCarloCrossSection::operator()", "src/nucleon.cxx:partonic_cross_section"]}
{"id": "C76", "title": "Thickness is accurate in floating point", "statement": "In double arithmetic (every operation rounded, gradual underflow) the thickness of a nucleon at any point is computed without leaving the exponential table, is not negative and differs from the ideal sum of Gaussians cut off at five widths by less than 2.1e-5 relative (interpolation included), except that a constituent within 1e-14 (relative) of the cutoff radius may count or not.", "quantifier": "every machine rounding to nearest with libm errors below two units in the last place; every width in [1e-10, 1e6] fm, up to a million constituents with any positions and non-negative weights, every point; release build", "why_tests_cant": "rounding errors depend on every operand; the extreme of the error and the table boundary are not hit by samples", "anchors": ["src/nucleon.h:NucleonCommon::thickness", "src/fast_exp.h:FastExp::operator()", "src/nucleon.cxx:NucleonCommon::NucleonCommon"]}
{"id": "C77", "title": "No negative results in floating point", "statement": "In double arithmetic no record of a run contains a negative impact parameter, thickness, reduced thickness, multiplicity or eccentricity, however the operations round.", "quantifier": "every machine rounding to nearest, every pair of projectiles, every impact parameter range, any random sequence with variates in the documented ranges; constituent width at least 1e-10 fm, normalisation not negative; release build", "why_tests_cant": "a sign error by rounding depends on cancellation in one of many operands", "anchors": ["src/event.cxx:Event::compute", "src/nucleon.h:NucleonCommon::thickness", "src/collider.cxx:Collider::sample_collision"]}
{"id": "C78", "title": "No undefined behaviour in floating point", "statement": "In double arithmetic, with ordinary options (documented species other than the deuteron, widths up to 1000 fm, up to a million constituents, impact parameters up to 10000 fm, grid step and size between 0.001 and 1000 fm) a run never indexes outside the exponential table or the grid, never converts an out-of-range number to an integer, never uses missing constituents and never throws; the same holds for any projectiles with bounded nucleon positions and options within the stated bounds.", "quantifier": "every machine rounding to nearest, every number of events, random sequence (normal variates within 100 standard deviations) and option value in the ranges; release build", "why_tests_cant": "one rounding at a boundary for one value in 2^64 is enough to go out of bounds", "anchors": ["src/collider.cxx:Collider::run_events", "src/event.cxx:Event::compute_nuclear_thickness", "src/nucleus.cxx", "src/nucleon.h", "src/fast_exp.h"]}
{"id": "C79", "title": "Multiplicity, centre of mass and eccentricities survive rounding", "statement": "In double-precision arithmetic with rounding, every event of a completed run reports a multiplicity, a centre of mass and eccentricities that are the documented sums over its own published grid up to an explicit rounding error: on an n x n grid the multiplicity has relative error at most 1.4e-16 n^2 + 4e-16, each centre-of-mass index differs by at most (2.8e-16 n^2 + 1e-15) n, and each eccentricity of order 2 to 5 differs by at most 4.1e-16 n^2 + 4e-13 from the documented eccentricity of the cells above the cut-off. In particular every printed eccentricity lies in [0, 1 + 5e-8].", "quantifier": "every option set with cell size in [0, 1e10], constituent width at least 1e-10 and non-negative normalisation, every grid of up to 10000 x 10000 cells, every event of the run whose cells stay below 1e60, every machine arithmetic satisfying the IEEE rounding laws, every random sequence", "why_tests_cant": "the bound must hold for every grid content; rounding errors accumulate over up to 1e8 cells and cancel in the centred moments, so no finite set of sample events bounds them", "anchors": ["src/event.cxx: Event::compute_reduced_thickness, Event::compute_observables", "src/event.h: Event::multiplicity, Event::eccentricity"]}
{"id": "C80", "title": "Thickness grids survive rounding", "statement": "Computed in rounded (double) arithmetic, the thickness grids of every record of a run agree, to a relative 2.2e-5, with the exact sums of the thicknesses of the participants of the collision the record reports, evaluated at the documented cell centres (up to 5e-16 of the grid size): no cell is missed because an index rectangle was computed with rounding errors, the cut-off radius moves by at most a relative 1e-14, and the error does not grow with the number of nucleons.", "quantifier": "all options in the stated ranges, all projectiles, all random streams, all machines satisfying the double contract, all events and all grid cells", "why_tests_cant": "Tests compare a few grids with a tolerance on one machine; whether a cell at the edge of an index rectangle can be lost to rounding for some position is a question about all positions and all rounding errors.", "anchors": ["src/event.cxx:Event::compute_nuclear_thickness", "src/nucleon.h:NucleonCommon::thickness", "src/nucleon.h:NucleonCommon::boundary", "src/event.cxx:Event::Event"]}
{"id": "C81", "title": "Reduced thickness survives rounding", "statement": "Computed in rounded (double) arithmetic, the reduced thickness in every cell of every record is the normalisation times the documented generalized mean of the two thicknesses reported for that cell, with relative error at most 1e-14 (1 + 1/|p|); for |p| below 1e-12 it is the geometric mean; for negative p a cell in which one nucleus has no matter is exactly zero; for positive p a cell in which both are below 1e-12 stays below 2e-12 times the normalisation.", "quantifier": "all options with |p| \u2264 10, all projectiles, all random streams, all machines satisfying the double contract, all events, all cells", "why_tests_cant": "Tests check a few values of p and of the thicknesses; the amplification of rounding errors by the outer power 1/p, the underflow of a^p and the switch at |p| < 1e-12 concern all of them.", "anchors": ["src/event.cxx:positive_pmean", "src/event.cxx:negative_pmean", "src/event.cxx:geometric_mean", "src/event.cxx:Event::compute_reduced_thickness"]}
{"id": "C82", "title": "Impact parameters and interaction range in floating-point arithmetic", "statement": "With IEEE double rounding, for 0 <= b-min <= b-max (b-max given, or the default sum of radii and six nucleon widths): the impact parameter written for every event lies between the limits up to a relative 5e-15, although the formula subtracts squares; and in the collision of every event each participant of one nucleus has a participating partner in the other nucleus whose exact transverse distance is at most six nucleon widths up to a relative 1e-15.", "quantifier": "all options with 0 <= b-min <= b-max, all nuclei, all random streams, all machines satisfying the rounding contract, every event of a run", "why_tests_cant": "rounding of squares and square roots depends on the values; a test sees a few values, and the failure (a value just outside the limits) is in the last digits", "anchors": ["src/collider.cxx: Collider::sample_collision, determine_bmax", "src/nucleon.h: NucleonCommon::participate, max_impact"]}
{"id": "C83", "title": "Participation probability in floating-point arithmetic", "statement": "With IEEE double rounding: a pair further apart than six nucleon widths (relative tolerance 1e-15) never interacts and consumes no random number; a pair closer than that collides exactly if a uniform number exceeds the computed miss probability, which lies in [0,1] and differs from exp(-sigma T_AB) of the constituents actually placed by at most (6e-15 + 1.4e-16 m^2) sigma/(4 pi v^2) + 6e-16.", "quantifier": "all widths, all constituent numbers up to 10^6, all cross sections, all nucleon positions, all random streams, all machines satisfying the rounding contract", "why_tests_cant": "the error of m^2 accumulated exponentials is a bound over all positions; a statistical test cannot see differences of 1e-14 in a probability", "anchors": ["src/nucleon.h: NucleonCommon::participate, sample_constituent_positions"]}
{"id": "C84", "title": "Every record of a run is the documented event", "statement": "Whatever the projectiles, options (positive constituent width and grid step, non-negative nucleon width and grid maximum), seed and random source, every event a run delivers is the documented one: the grid has ceil(2 grid-max/grid-step) cells per side; it comes from a collision at the recorded impact parameter in which at least one nucleon of each nucleus participates, each participant has the configured number of constituents and a participating partner in the other nucleus within six nucleon widths; Npart counts the participants; the nuclear thickness at the centre of each cell is the sum over participants of their constituents' Gaussians (relative error at most 2e-5 from the tabulated exponential, cut at five constituent widths); the reduced thickness is normalization times the generalized mean of the two; the multiplicity is its integral and the eccentricities the documented moments, all in [0,1].", "quantifier": "all nuclei (any history of samplings), all options in the stated ranges, all seeds, random sources and event numbers", "why_tests_cant": "the statement composes initialization, sampling, collision loop and event computation over unbounded runs; a test sees a few events of a few nuclei and cannot check the chain of hypotheses (non-negative weights, participants own constituents) for all of them", "anchors": ["src/collider.cxx: Collider::run_events, sample_collision", "src/event.cxx: Event::compute, compute_nuclear_thickness, compute_reduced_thickness, compute_observables", "src/nucleon.h: NucleonCommon::participate, thickness, sample_constituent_positions"]}
{"id": "C85", "title": "Sampled nuclei have no preferred direction", "statement": "With an ideal source of random numbers (independent canonical numbers, uniform in [0,1)), the joint distribution of the positions of all nucleons of a sampled nucleus relative to its centre does not change under any rotation of space, for every kind of nucleus: proton, deuteron, Woods\u2013Saxon with minimum distance, deformed Woods\u2013Saxon, and positions read from a file (which are given a random orientation).", "quantifier": "every nucleus in every reachable state, every offset, every rotation in SO(3), every measurable function of the positions, every bound on the number of rejections", "why_tests_cant": "A statement about a probability distribution over all random streams and all rotations; a finite sample can only fail to contradict it.", "anchors": ["src/nucleus.cxx: Deuteron::sample_nucleons_impl", "src/nucleus.cxx: MinDistNucleus", "src/nucleus.cxx: WoodsSaxonNucleus::sample_nucleons_impl", "src/nucleus.cxx: DeformedWoodsSaxonNucleus::sample_nucleons_impl", "src/nucleus.cxx: ManualNucleus::sample_nucleons_impl", "src/random.h: cos_theta, phi"]}
{"id": "C86", "title": "Sampling a nucleus ends with probability one", "statement": "With an ideal source of random numbers the probability that sampling a nucleus needs more than n rejections for some nucleon is at most A\u00b7q\u207f with q < 1 (A nucleons), so that every built-in nucleus is complete after finitely many draws with probability one.", "quantifier": "every reachable nucleus of every kind (files with at least one configuration), every offset, every n; every built-in species", "why_tests_cant": "Termination of a rejection loop with probability one is a statement about infinitely many random streams; no test can rule out a non-terminating one.", "anchors": ["src/nucleus.cxx: Deuteron::sample_nucleons_impl", "src/nucleus.cxx: DeformedWoodsSaxonNucleus::sample_nucleons_impl", "src/nucleus.cxx: Nucleus::create"]}
{"id": "C87", "title": "Sampled nucleon positions have the documented densities", "statement": "With an ideal source of uniform numbers: a sampled deuteron nucleon has, given that sampling ended, the density ((e^{-ar}-e^{-br})/r)^2 in space (Hulthen), and the second nucleon is its exact mirror image; in a spherical Woods-Saxon nucleus the nucleon radii are independent and each has the law of one draw from the tabulated radial density; in a deformed nucleus there is a symmetry axis, uniform on the sphere, and given it the (radius, height over the equator) of the nucleons are independent, each with the density r^2/(1+exp((r-R(1+b2 Y20+b4 Y40))/a)) in (r, cos theta) on 0<r<rmax. All the densities have finite positive total mass.", "quantifier": "all nuclei reached by creation and any history of sampling and collisions, all parameters, all offsets, all measurable test functions, all numbers of attempts allowed", "why_tests_cant": "a statement about probability laws: a unit test compares finitely many histogram bins with a tolerance and cannot see a wrong Jacobian smaller than it or a wrong tail", "anchors": ["src/nucleus.cxx: Deuteron::sample_nucleons_impl, WoodsSaxonNucleus::sample_nucleons_impl, DeformedWoodsSaxonNucleus::sample_nucleons_impl, deformed_woods_saxon_dist", "src/nucleus.h"]}
{"id": "C88", "title": "An event does not depend on the events and attempts before it", "statement": "The nuclei, nucleons, constituent vectors and the event object are reused for all attempts and events. Still, apart from the state of the random numbers nothing carries over: a run gives, from any state of these objects (any history of sampling and colliding), the same records, the same final random state or the same failure as newly constructed objects would; in particular a run can be interrupted after any number of events and continued with new objects.", "quantifier": "all nuclei (any species, any history), all event objects, all random states, all numbers of events", "why_tests_cant": "A stale value (a participant flag, a constituent vector, a grid cell) shows only for particular sequences of events; tests with one event or a fixed seed do not compare against fresh objects.", "anchors": ["src/collider.cxx:run_events", "src/collider.cxx:sample_collision", "src/nucleon.h:set_position", "src/event.cxx:compute"]}
{"id": "C89", "title": "Retries do not bias the events, and a collision is found with probability one", "statement": "With ideal random numbers, the collision returned after at most n attempts has, given that one was found, the same distribution as a first attempt given that it collides (for every measurable function of impact parameter, number of collisions and nucleons); the probabilities are those of independent attempts; and if a collision is possible at all, sample_collision ends with probability one.", "quantifier": "all nuclei with any history, all collider settings, all ideal sources (any state of the saved normal deviate), all n, all measurable functions", "why_tests_cant": "A statement about a probability distribution over all random states; finite samples cannot establish it.", "anchors": ["src/collider.cxx:sample_collision"]}
{"id": "C90", "title": "Impact parameters are weighted by area; collision probability and cross section", "statement": "An attempt with impact parameter limits bmin < bmax is a mixture of attempts at prescribed impact parameter b with density 2b/(bmax^2-bmin^2): for every measurable function of the collision, E[f] is the integral of 2b/(bmax^2-bmin^2) E_b[f]. Hence pi (bmax^2-bmin^2) times the probability that an attempt collides is the integral of 2 pi b P(b).", "quantifier": "all nuclei with any history, all limits 0 <= bmin < bmax, all ideal sources, all measurable functions", "why_tests_cant": "An identity between distributions over all random states.", "anchors": ["src/collider.cxx:sample_collision"]}
{"id": "C91", "title": "Proton-proton collisions reproduce the nucleon-nucleon cross section", "statement": "Two protons without substructure collide at impact parameter b with probability 1 - exp(-sigma T(b)) if b <= 6w and never beyond; for b-min 0 and b-max at least 6w (the default), pi bmax^2 times the probability that an attempt collides is exactly the inelastic cross section the partonic cross section parameter was fitted to; and a collision is found with probability one.", "quantifier": "all nucleon widths w > 0, all partonic cross sections, all fluctuation parameters, with and without ncoll, all ideal sources", "why_tests_cant": "The physical meaning of the cross section parameter is a statement about the measure of all random states that lead to a collision.", "anchors": ["src/collider.cxx:sample_collision", "src/nucleon.h:participate", "src/nucleon.cxx:partonic_cross_section"]}
{"id": "C92", "title": "The events of a run are independent and identically distributed", "statement": "With ideal random numbers, the events of one run of N events are statistically independent, and each has the distribution of the event of a run of one event: for all sets S_0, S_1, ... of events (impact parameter, number of binary collisions, grids, participants, multiplicity, eccentricities), the probability that event l is in S_l for every l is the product of the probabilities that the event of a one-event run is in S_l. So one long run can be used in place of many short ones, and nothing (grids, participants, nuclei, constituents) leaks from one event into the next.", "quantifier": "all projectiles, options, numbers of events, measurable sets of events and initial laws of the random state", "why_tests_cant": "Independence is a statement about the joint distribution of all events; tests see finitely many events of a few seeds, and a leak that correlates events weakly is invisible to them.", "anchors": ["src/collider.cxx: Collider::run_events", "src/collider.cxx: Collider::sample_collision", "src/event.cxx: Event::compute", "src/nucleus.cxx: Nucleus::sample_nucleons"]}
{"id": "C93", "title": "Averages over the events of a run converge with standard error 1/sqrt(N)", "statement": "For every quantity f of an event with finite variance, among the completed runs of N events at most the fraction Var(f)/(N eps^2) has an event average that deviates from the single-event mean of f by eps or more.", "quantifier": "all projectiles, options, N, eps > 0 and square-integrable quantities of an event", "why_tests_cant": "A statement about the distribution of averages over all seeds and all N.", "anchors": ["src/collider.cxx: Collider::run_events", "src/collider.cxx: Collider::sample_collision", "src/event.cxx: Event::compute"]}
{"id": "C94", "title": "Runs end with probability one", "statement": "The loop that looks for a collision and the rejection loops in the nuclei have no bound on the number of iterations. With ideal random numbers they end with probability one, for all projectiles Nucleus::create makes (files with at least one configuration and nucleon), positive widths, a positive cross section, at least one constituent and 0 <= b-min < 6 nucleon widths; and if moreover the grid is valid and the nuclei have finite extent (the conditions of C61), a run of any number of events delivers all its records with probability one.", "quantifier": "all projectiles and options in these ranges, all numbers of events, almost every sequence of random numbers", "why_tests_cant": "Termination of unbounded random loops: a test that ends says nothing about other seeds, one that does not end is inconclusive.", "anchors": ["src/collider.cxx: Collider::run_events", "src/collider.cxx: Collider::sample_collision", "src/event.cxx: Event::compute", "src/nucleus.cxx: Nucleus::sample_nucleons", "src/nucleus.cxx: Deuteron::sample_nucleons_impl", "src/nucleus.cxx: DeformedWoodsSaxonNucleus::sample_nucleons_impl", "src/nucleon.h: NucleonCommon::participate"]}
{"id": "C95", "title": "The random library keeps the contract the other properties assume", "statement": "With the engine std::mt19937_64 and the distributions of libstdc++, whatever the engine state: uniform numbers lie in [0, 1) and are 0 only if the engine delivered the 64-bit number 0, gamma variates are non-negative, a draw from a tabulated density lies between its smallest and largest breakpoint, an index from uniform_int_distribution(0, k) is at most k, std::shuffle only permutes, and a normal variate of width s is at most 13 s from its mean, including the one saved for the next call. Hence a run with a valid configuration from any seed executes no undefined behaviour and throws nothing, without any assumption about random numbers.", "quantifier": "every engine state and seed, every distribution parameter, every table, every saved value a program can hold", "why_tests_cant": "the contract is about 2^19937 engine states and all parameters; a test sees a handful of draws", "anchors": ["src/random.h: Engine, canonical", "src/nucleon.h: participant_fluctuation_dist_, constituent_position_dist_", "src/nucleus.h: woods_saxon_dist_", "src/collider.cxx: Collider::Collider"]}
{"id": "C96", "title": "Different seeds give different random numbers", "statement": "Two runs with different positive random-seed values use different streams of random numbers: the streams differ within the first 312 numbers of the engine. No seed leads to the dead state of the Mersenne twister: with every seed one of the first 312 numbers is not zero. The numbers of the engine are a one-to-one function of the words of its state.", "quantifier": "every pair of 64-bit seeds", "why_tests_cant": "2^127 pairs of seeds", "anchors": ["src/random.h: Engine", "src/collider.cxx: Collider::Collider"]}
{"id": "C97", "title": "The random library delivers the distributions it names", "statement": "With an engine that delivers independent uniform numbers, the values trento obtains from the random library have exactly the laws the C++ standard names - uniform on [0, 1), normal with the given mean and deviation, gamma with the given shape and scale, the density interpolated linearly between the breakpoints of a table, uniform on 0, ..., k - and are independent of each other, in any sequence of requests of any kinds, although the distribution objects keep a number between calls and the algorithms use a random number of uniform numbers. Hence everything proved about ideal sources (isotropy, densities, unbiased retries, independent events, the proton-proton cross section) holds for trento with this library, and the radii of a spherical nucleus are independent with the interpolated Woods-Saxon density.", "quantifier": "every finite sequence of allowed requests with any parameters, all measurable sets of outcomes", "why_tests_cant": "a statistical test compares a sample with a distribution to some confidence and for some parameters; it cannot establish equality of laws, nor independence for every request pattern", "anchors": ["src/random.h: Engine, canonical, cos_theta, phi", "src/nucleon.h: participant_fluctuation_dist_, constituent_position_dist_", "src/nucleus.h: woods_saxon_dist_", "src/nucleus.cxx: WoodsSaxonNucleus, ManualNucleus"]}
{"id": "C98", "title": "The substructure of a nucleon averages to the nucleon", "statement": "A nucleon with m constituents of width v and nucleon width w > v looks, on average over its substructure, like a round nucleon of width w whatever m and v are: each constituent sits around the nucleon with variance w^2 - v^2 in each direction, the weights of the constituents are independent, positive, of mean 1 and variance 1/k, and the mean thickness at any point is the Gaussian of width w (up to the cut at five constituent widths and the interpolated exponential: never above it, and below it by a relative 2e-5 plus 4e-6 of the peak of a constituent at most).", "quantifier": "every nucleon position, every number of constituents and every pair of widths for which the program keeps the nucleon width (v = w, or m >= 2 and w - v >= 1e-6), every fluctuation parameter k > 0, every point of the plane, every earlier history of requests to the random library", "why_tests_cant": "a mean over continuous random positions and weights cannot be computed by running examples, and the recentring of the constituents correlates them; the identity must hold for all widths and numbers", "anchors": ["src/nucleon.cxx: calc_sampling_width, gamma_param_unit_mean", "src/nucleon.h: NucleonCommon::sample_constituent_positions, NucleonCommon::thickness"]}
{"id": "C99", "title": "Shuffling favours no order and the cyclic sampler no value", "statement": "With an engine that delivers independent uniform numbers, the shuffle of the cyclic normal sampler puts its quantiles into every order with the same probability 1/n!, independently of the random numbers used afterwards; hence each number delivered by the sampler, in any pass and after any number of reshuffles, is each of its quantiles with the same probability, so the Monte Carlo cross section integrates over constituent positions without bias.", "quantifier": "every list of at most 2^64 values (of even or odd length, with or without repetitions), every order, every sampler size, number of loops and call number", "why_tests_cant": "n! orders and unboundedly many calls cannot be enumerated, and the library uses one random number for two positions, so a bias would be tiny", "anchors": ["src/random.h: CyclicNormal (constructor, operator())", "src/nucleon.cxx: MonteCarloCrossSection::operator()"]}
{"id": "C100", "title": "Events are statistically symmetric about the reaction plane", "statement": "The impact parameter is along x and nothing in the program prefers one side of that axis: a collision and the same collision turned by half a turn about the x axis have the same distribution, and for every set of reports (impact parameter, collision count, participants, multiplicity, eccentricities, grid) a run delivers a report in the set exactly as often as a report whose grid, mirrored in y, is in the set. In particular the mean entropy of a cell equals the mean entropy of its mirror cell.", "quantifier": "every nucleus the program can create or has sampled before, every option set with a positive constituent width and grid, every measurable set of events, every function of an event, every limit on attempts", "why_tests_cant": "it is an equality of distributions over infinitely many random numbers; a sample mean only shows it up to a statistical error", "anchors": ["src/nucleus.cxx: every sample_nucleons_impl", "src/collider.cxx: Collider::sample_collision", "src/nucleon.h: NucleonCommon::sample_constituent_positions, participate", "src/event.cxx: Event::compute"]}
{"id": "C101", "title": "Exchanging projectile and target changes nothing but the side", "statement": "Which nucleus is given first on the command line changes the order of every random draw, but not the law of the events: the collisions with the nuclei exchanged have the distribution of the original collisions with the nuclei exchanged and everything turned by half a turn about the beam axis, and for every set of reports the exchanged run delivers a report in the set exactly as often as the original run delivers one whose grid, turned by half a turn, is in the set. So for two equal nuclei the mean entropy profile is symmetric in x, in y and under the half turn.", "quantifier": "every pair of nuclei the program can create or has sampled before, every option set with a positive constituent width and grid, every measurable set of events, every function of an event, every limit on attempts", "why_tests_cant": "it is an equality of distributions between two programs that consume the same random numbers in different order; samples show it only up to a statistical error, and no seed reproduces an event", "anchors": ["src/collider.cxx: determine_asym, determine_bmax, Collider::sample_collision", "src/nucleus.cxx: every sample_nucleons_impl", "src/nucleon.h: NucleonCommon::participate, sample_constituent_positions", "src/event.cxx: Event::compute"]}
{"id": "C102", "title": "Binary collision scaling: mean Ncoll times the cross section is A B times the nucleon-nucleon cross section", "statement": "With --ncoll, at a fixed impact parameter the mean number of binary collisions is the Glauber integral of the nucleon densities of the two nuclei with the probability that a pair of nucleons collides, although the collisions of one nucleon are not independent (its constituents are drawn once). Over all impact parameters (b-min 0, b-max beyond the reach of the nuclei) the mean number of binary collisions per attempt times pi bmax^2 is A times B times the cross section of trento p p with the same nucleons; without substructure that is the fitted --cross-section. The same holds for the events of a run: mean Ncoll of an event times sigma_AB is A B sigma_NN. For any other range of impact parameters the product is at most that.", "quantifier": "every pair of nuclei the program can create or has sampled before, every nucleon width, number, width and fluctuation of constituents, every cross section parameter, every range of impact parameters, every limit on attempts", "why_tests_cant": "it is an identity between mean values of three random programs; samples show it only up to a statistical error, and a bias in any of the rotation, recentring, lazy constituent drawing or impact parameter weighting would be a small shift of the mean", "anchors": ["src/collider.cxx: Collider::sample_collision, ncoll", "src/nucleon.h: NucleonCommon::participate, sample_constituent_positions", "src/nucleus.cxx: every sample_nucleons_impl, random rotation", "src/nucleon.cxx: compute_cross_sec_param"]}
{"id": "C103", "title": "The fitted cross section parameter is accurate", "statement": "For one constituent the fit finds the only partonic cross section that reproduces --cross-section, with a relative error of 2^-34, and the nucleon-nucleon cross section of that parameter (hence that of trento p p) is the requested one with a relative error of 2^-33; if no parameter in the search range does, the fit throws std::domain_error. The root finder returns, for every function, also one that draws random numbers, a sub-bracket with a sign change at its ends that meets the tolerance, is a point, or was halved once per four evaluations. With several constituents the fitted parameter lies between two parameters at most a factor exp(15/8) apart for which Monte Carlo runs gave cross sections on different sides of the requested one.", "quantifier": "every nucleon width and cross section, every function given to the root finder, every tolerance of 1 to 50 bits and number of evaluations, every state of the random source", "why_tests_cant": "convergence of the root finder for every function is a statement about an iteration whose steps depend on the function; a test sees the iterations for a few widths only", "anchors": ["src/nucleon.cxx: analytic_partonic_cross_section, numeric_partonic_cross_section (calls of boost::math::tools::toms748_solve, eps_tolerance)"]}
{"id": "C104", "title": "Which nucleons are wounded", "statement": "Given the positions of the nucleons, the probability that none of a chosen set of nucleons becomes a participant is the mean over the constituents (drawn independently for every nucleon) of the product of exp(-sigma T_AB) over the pairs of nucleons within 6 w that involve a chosen one. So at every impact parameter the nuclei collide with probability 1 - <prod exp(-sigma T_AB)> over all pairs, the mean number of participants is the sum over the nucleons of the probabilities 1 - <prod exp(-sigma T_AB)> over the pairs of that nucleon, and pi (bmax^2 - bmin^2) times the collision probability is the Glauber integral for the nuclear cross section. Without substructure there is no mean over constituents. A larger partonic cross section never lowers any of these probabilities, and switching the count of binary collisions on or off does not change them.", "quantifier": "every pair of nuclei, every impact parameter, every set of nucleons, every nucleon and constituent width, number of constituents, fluctuation and cross section parameter, with independent random numbers", "why_tests_cant": "a statement about the joint probability law of all participants, for all configurations; a test estimates a few frequencies for a few configurations. That the constituents are drawn by whichever pair needs them first, and that the loop skips pairs of participants, makes the product formula non-obvious", "anchors": ["src/nucleon.h: NucleonCommon::participate, sample_constituent_positions", "src/collider.cxx: Collider::sample_collision"]}
{"id": "C105", "title": "Fluctuations change no mean thickness and no geometry", "statement": "In the collisions kept by the program the weight of every constituent is independent of everything else (positions, participants, the other weights) and gamma distributed with mean 1: drawing it anew changes no mean. So for every value of the fluctuation parameter the joint distribution of impact parameter, number of binary collisions and number of participants is the same, the mean nuclear thickness functions at every grid cell are the same, so is the mean of the product of a thickness of the projectile and one of the target, and for the arithmetic mean (p = 1) the mean reduced thickness and the mean multiplicity. Any quantity affine in every weight has the mean it would have if all weights were 1.", "quantifier": "every pair of nuclei, all positive fluctuation parameters, every impact parameter range, nucleon and constituent parameters, cross section, grid, every pair of cells, with an ideal engine and the distributions of the standard library", "why_tests_cant": "a statement about the joint law of all weights given that the nuclei collided; a test estimates a few means for a few configurations. Weights are drawn by whichever pair needs the nucleon first, and collisions are selected by acceptance, so their independence of the outcome is not obvious", "anchors": ["src/nucleon.h: NucleonCommon::participate, sample_constituent_positions, thickness", "src/event.cxx: Event::compute_nuclear_thickness, compute_reduced_thickness", "src/collider.cxx: Collider::sample_collision"]}
{"id": "C106", "title": "A large fluctuation parameter turns the fluctuations off", "statement": "The mean squared change of a nuclear thickness by the random weights of its constituents is exactly 1/k times a number that does not depend on the fluctuation parameter k (the mean sum of the squared thicknesses of the single constituents). So the probability that the weights change the thickness anywhere on the grid by eps or more is at most a constant over k eps^2, and as k grows the distribution of the two thickness grids converges to that of events without fluctuations.", "quantifier": "all nuclei, all fluctuation parameters k > 0, all points and grids, all numbers of attempts, all bounded continuous functions of the two grids", "why_tests_cant": "The usage page states a limit of distributions (large k: a delta function, no fluctuations); a test sees finitely many events at one k.", "anchors": ["doc/usage.rst:170-181", "src/nucleon.cxx:46-49 gamma_param_unit_mean", "src/nucleon.h NucleonCommon::sample_constituents / NucleonCommon::thickness", "src/event.cxx Event::compute_nuclear_thickness"]}
{"id": "C107", "title": "The command line means what the documentation says", "statement": "Every command line written in the documented ways (long options in full or abbreviated unambiguously, value apart or after =, letters with the value apart or attached, letters without value grouped, projectiles and number of events anywhere between them, -- before further arguments) is read as exactly the documented options with those values, the arguments in order as projectile, projectile, number-events. Options may be given in any order, before or after the projectiles: reordered command lines have the same effect. Unknown or ambiguous options, unknown letters, empty, missing or superfluous values and a fourth argument end the program with status 1 before anything is done. Whatever is read has only documented option names, with one value or none as documented.", "quantifier": "all command lines of any length in these spellings, all values, all reorderings; for the last part all lists of words whatsoever", "why_tests_cant": "The spellings, values and orders are unbounded combinations; the tests never run the main program.", "anchors": ["src/trento.cxx:61-178 main (options, positional options, command_line_parser)", "doc/usage.rst:5-20"]}
{"id": "C108", "title": "Config files mean what the documentation says", "statement": "A config file consisting of lines key = value, comment lines and empty lines (any blanks around key and value, a comment after the value allowed) gives exactly its settings in order. With such files, every option has the value given on the command line, else the one of the first config file that sets it, else its default. With a file that has a line that is none of these, or a setting below a section header, no run starts.", "quantifier": "all config file texts of this form, of any length, all command lines in the documented spellings naming any number of files", "why_tests_cant": "Texts and blanks are unbounded; the precedence must hold for every combination of sources.", "anchors": ["src/trento.cxx:205-223", "doc/usage.rst:309-370"]}
{"id": "C109", "title": "Integer options take exactly the decimal integers in range", "statement": "The number of events, the number of constituents and the random seed accept exactly the decimal integers (digits, possibly with a sign) in the range of a 32-bit (seed: 64-bit) signed integer, and the run uses that integer; every integer in range can be given in its usual notation. Nothing is truncated or wrapped, and texts such as 1e3 or 1.0 are refused.", "quantifier": "all texts and all integers in range", "why_tests_cant": "All texts and all 2^32 (2^64) integers.", "anchors": ["src/trento.cxx:77 number-events", "src/trento.cxx:124 constit-number", "src/trento.cxx:138 random-seed"]}
{"id": "C110", "title": "Real options take exactly decimal numerals, infinities and NaN; NaN stalls the run", "statement": "The real-valued options accept exactly the decimal numerals (a sign or none, digits with at most one decimal point, possibly an exponent with digits; nothing before, after or between) whose magnitude does not overflow a double, with their value, and the words inf, infinity, nan and nan(...) in letters of any case with or without a sign; every other text is an error. A run uses the value so given. nan passes the width checks of the program, and a run whose impact parameter range, constituent width or cross section parameter is nan, or whose impact parameter range is infinite, never delivers an event; a grid size that is nan or infinite or a grid step that is nan or zero is undefined behaviour before the first event.", "quantifier": "Every text of every real option on the command line or in a config file; for nan, every combination of the other options (special values included), nuclei and random sequences.", "why_tests_cant": "The texts are unbounded; that a run never ends cannot be observed by a test.", "anchors": ["src/trento.cxx:options", "src/trento.cxx:main", "src/collider.cxx:sample_collision", "src/nucleon.h:participate"]}
{"id": "C111", "title": "The density options leave the collisions alone", "statement": "Two runs from the same seed (or random state) whose options differ only in --reduced-thickness, --normalization, --grid-max and --grid-step have, event by event, the same number, impact parameter, binary collision count and participant count. If only --reduced-thickness and --normalization differ, one run succeeds exactly when the other does and the thickness grids of both nuclei agree cell by cell; multiplying the normalization by s multiplies every reduced thickness and the multiplicity by s, and raising p never lowers a reduced thickness or a multiplicity.", "quantifier": "All options, nuclei, random states and numbers of events; the first two statements for every arithmetic, rounding and special values included.", "why_tests_cant": "Compares two runs for every seed and every pair of option values.", "anchors": ["src/collider.cxx:run_events", "src/collider.cxx:sample_collision", "src/event.cxx:Event", "src/event.cxx:compute"]}
{"id": "C112", "title": "The grids integrate to the weights of the participants", "statement": "On every grid whose step does not exceed the constituent width, the cell area times the sum of a thickness grid is at most (1 + 2.1e-8) times the summed weights of the participants of that nucleus (constituent weights divided by the number of constituents), wherever the nucleons are, and at least (1 - 2.5e-4) times it if all constituents of the participants are five constituent widths inside the grid. Hence for p <= 1 the multiplicity is at most (1 + 2.1e-8) norm times half the weight of all participants, for p >= 1 it is at least (1 - 2.5e-4) times that, at p = 1 it is the wounded nucleon value within 2.5e-4, and two such grids of any step and size give multiplicities within 3e-4 of each other.", "quantifier": "all participants, constituent positions and weights, all grid sizes and steps up to the constituent width, all norm, all p on the stated side of 1", "why_tests_cant": "the error of replacing an integral by a sum over cell centres depends on where the constituents lie relative to the cells; tests see a few positions and one grid", "anchors": ["src/event.cxx: compute_nuclear_thickness, compute_reduced_thickness", "src/nucleon.h: thickness", "src/fast_exp.h: operator()"]}
{"id": "C113", "title": "Wounded nucleon scaling of the multiplicity", "statement": "With the library distributions and an ideal engine, on a grid whose step does not exceed the constituent width: for p <= 1 the mean multiplicity of the events is at most (1 + 2.1e-8) norm/2 times the mean number of participants. Over the events whose participants lie at least five constituent widths inside the grid, for p >= 1 it is at least (1 - 2.5e-4) norm/2 times the mean number of participants, so that at p = 1 the two agree within 2.5e-4 (the wounded nucleon model), whatever the fluctuations and the substructure are.", "quantifier": "all nuclei and call histories, cross sections, positive fluctuation parameters, numbers of constituents >= 1, grids with step at most the constituent width, reduced thickness parameters, norms, impact parameter ranges and random engines of the ideal class", "why_tests_cant": "A sample average has statistical errors of the order of the fluctuations and covers one configuration; the statement is an inequality between two integrals over all engine outputs, for every configuration.", "anchors": ["src/event.cxx: Event::compute_reduced_thickness, Event::compute_nuclear_thickness", "src/nucleon.h: NucleonCommon::thickness, sample_constituent_positions", "src/collider.cxx: Collider::sample_collision, run_events"]}
{"id": "C114", "title": "What the fluctuations do to the mean multiplicity", "statement": "With the library distributions and an ideal engine: for a reduced thickness parameter 0 <= p <= 1 the fluctuations of the constituents lower the mean reduced thickness in every grid cell and the mean multiplicity, compared with the same collisions without fluctuations (all weights 1); for p >= 1 they raise them. For every p >= 0 both converge to the values without fluctuations as the fluctuation parameter k grows, and so does the mean of every continuous function of the two thickness grids of at most linear growth.", "quantifier": "all nuclei and call histories, cross sections, fluctuation parameters k > 0, constituent numbers and widths, grids, p >= 0, norms >= 0 and random engines of the ideal class; all continuous functions of linear growth for the limit", "why_tests_cant": "The ordering is an inequality of expectations and the limit is over a continuous parameter: samples see neither, and differ by their own statistical errors.", "anchors": ["src/event.cxx: Event::compute_reduced_thickness, geometric_mean, positive_pmean", "src/nucleon.h: NucleonCommon::sample_constituent_positions (gamma fluctuations)", "src/collider.cxx: Collider::sample_collision"]}
{"id": "C115", "title": "Overall scale of the density", "statement": "Multiplying --normalization by a positive number s, or all the constituent weights of an event by s, multiplies the entropy density and the multiplicity by s and leaves the geometry and the centre of mass unchanged; each eccentricity is unchanged provided no cell and no denominator crosses the documented floor of 1e-12 (for the weights and a negative reduced thickness parameter, provided also no thickness crosses it). The proviso is needed: two neighbouring cells have eccentricity 1, and 1e-13 times these cells eccentricity 0.", "quantifier": "every pair of thicknesses and every order p of the mean; every grid, positive factor and harmonic; every event with any nucleons; every run with any options, library implementation and random sequence", "why_tests_cant": "a statement about all grids, events and runs; comparing two runs on an example says nothing about which other events keep their shape", "anchors": ["src/event.cxx: Event::compute_reduced_thickness, Event::compute_observables", "src/event.cxx: geometric_mean, positive_pmean, negative_pmean", "src/nucleon.h: NucleonCommon::thickness"]}
{"id": "C116", "title": "The unit of length does not matter", "statement": "If all lengths are expressed in another unit, i.e. multiplied by l > 0, and the cross section parameter by l squared, then the same pairs of nucleons participate; an event on given nucleons succeeds on a grid of the same number of cells with the same participants, 1/l^2 times the thicknesses and the density, the same multiplicity, the same centre of mass in cells and the same eccentricities; and a proton-proton run from the same seed has the same events throughout, with l times the impact parameters. Provisos: no floor of 1e-12 of the mean or the eccentricities, and no 1e-6 tolerance of the sampling width, is crossed.", "quantifier": "every positive factor; every pair of nucleons; every event with any nucleons, widths, grid and options; every proton-proton run with any options and random sequence whose normal numbers are multiples of the standard deviation (as those of the standard library)", "why_tests_cant": "dimensional consistency of every formula at once, for all inputs; a test compares a few numbers in one unit", "anchors": ["src/nucleon.h: NucleonCommon::participate, thickness, boundary, sample_constituent_positions", "src/nucleon.cxx: NucleonCommon::NucleonCommon, calc_sampling_width", "src/event.cxx: Event::Event, compute", "src/collider.cxx: sample_collision, determine_bmax"]}
{"id": "C117", "title": "A larger grid only adds cells", "statement": "Raising --grid-max by j grid steps adds j cells on every side and changes none: from the same seed the events are the same throughout (numbers, impact parameters, binary collisions, participants), every cell of the smaller grid keeps its thicknesses and its reduced thickness (found shifted by j), the multiplicity can only grow, and if the added cells hold no reduced thickness the multiplicity and the eccentricities are the same and the centre of mass moves by exactly j cells. They hold none whenever the constituents of the participants, with their cutoff of five widths, fit in the smaller grid.", "quantifier": "every pair of runs with the same options but for a grid-max raised by any number of steps, any projectiles and random sequence; every event on any nucleons", "why_tests_cant": "a relation between two runs for every grid, step, projectile and random sequence; a test compares one or two grids", "anchors": ["src/event.cxx: Event::Event, compute_nuclear_thickness, compute_reduced_thickness, compute_observables", "src/collider.cxx: run_events"]}
{"id": "C118", "title": "Where the collision sits on the grid does not matter", "statement": "If all nucleons of an event are moved by whole grid cells, the participants are the same, every cell has the thicknesses and the reduced thickness of the cell it came from, and, as long as the participants with the cutoff of their constituents are inside the grid before and after, the multiplicity and the eccentricities are the same and the centre of mass moves by the same number of cells.", "quantifier": "every event on any nucleons, widths, grid and options; every displacement by whole cells in both directions", "why_tests_cant": "a relation between two events for all nucleons, grids and displacements; a test compares a few", "anchors": ["src/event.cxx: Event::compute, compute_nuclear_thickness, compute_reduced_thickness, compute_observables", "src/nucleon.h: NucleonCommon::thickness, boundary"]}
{"id": "C119", "title": "Superposition: only the constituents of the participants matter", "statement": "An event is a function of the constituents of the participants only: spectators and the positions recorded for the nucleons change nothing, not even rounding or errors. In exact arithmetic the order of the nucleons, the order of the constituents and their grouping into nucleons do not matter to thicknesses, reduced thickness, multiplicity, centre of mass and eccentricities, and the thickness grid of two groups of nucleons together is the sum of their grids, and adding nucleons to either nucleus lowers neither the participants nor, in any cell, the thicknesses and the reduced thickness, nor the multiplicity (nonnegative normalization).", "quantifier": "every pair of lists of nucleons, every grid, width and option; spectators: any arithmetic", "why_tests_cant": "a relation between events for every list of nucleons; a test compares a few", "anchors": ["src/event.cxx: Event::compute, compute_nuclear_thickness", "src/nucleon.h: NucleonCommon::thickness, boundary"]}
{"id": "C120", "title": "Cuts in the impact parameter", "statement": "Asking for a narrower range of impact parameters (--b-min, --b-max) is the same as selecting the events of that range from a run with a wider range: the conditional mean of any function of the collision (hence the conditional distribution of the events) is the same, whatever the numbers of attempts allowed; and the probabilities that one attempt collides in the range are in the ratio of the areas of the two annuli. A range can be run in two parts: means over the whole are those over the parts weighted with the areas, and the cross sections add up.", "quantifier": "every pair of nested impact parameter ranges, every pair of nuclei in any state, every measurable function of the collision, every number of attempts", "why_tests_cant": "a statement about probability distributions over all random sequences; a test sees a sample", "anchors": ["src/collider.cxx: Collider::sample_collision, run_events", "src/collider.h: bmin_, bmax_"]}
{"id": "C121", "title": "A shorter run is the beginning of a longer one", "statement": "From the same seed (or random state) and with otherwise equal options, a run of fewer events delivers exactly the first events of a run of more events, with the same numbers, impact parameters, binary collision counts and densities; and a run that fails fails in the same way however many more events are asked for.", "quantifier": "every pair of numbers of events N' <= N, all options, every random state, every arithmetic (rounding and NaN included)", "why_tests_cant": "a test compares two lengths for one seed; the claim needs that nothing in the sampling depends on the number of events, in any state", "anchors": ["src/collider.cxx: Collider::Collider, run_events, sample_collision", "src/collider.h: nevents_"]}
