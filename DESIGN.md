# Formal model of Duke-QCD/trento in Lean 4 — design

Section 2 was written before the proofs and is kept current; section 3 is the trusted base; section 4 lists what is wrong in the
code according to the proofs; `properties.jsonl` states the properties in English, `MANIFEST.json` names the theorems,
`AXIOMS.md` lists the axioms of each, `seeded/LOG.jsonl` the wrong programs the theorems were tested against.

## 1. Approach

trento is a Monte Carlo event generator.  Its logic is (a) floating point formulas, (b) loops that
consume random numbers, (c) bookkeeping (participant flags, grids, counters), (d) text formatting
and file handling.  One executable-style model is written, **generic over the arithmetic** and
**generic over the random number source**, function by function, each definition citing the source lines.

* `Arith F` — the operations of `double` the code uses (`+ - * /`, `<` returning `Bool`, `sqrt`,
  `exp`, `pow`, conversions …) *without any law*.  The model is written against this interface.
  - Theorems about control flow, flags, counters, RNG consumption, history independence, output order
    … are proved for an arbitrary `F` with no laws: they hold for IEEE doubles, NaN included.
  - Theorems about numbers are proved for the instance `F = ℝ` (exact real arithmetic; rounding is
    the documented gap).
  - Theorems about NaN / ±∞ (division by zero, log 0 …) are proved for the instance `XReal` = ℝ ∪ {+∞, −∞, NaN}
    with the IEEE rules for special values.
* `Rng F E D` — engine state `E`, hidden state `D` of `std::*_distribution` objects, and the draw
  functions.  No law is needed for structural theorems; `LawfulRng` states the C++ library contract
  (`canonical ∈ [0,1)`, gamma ≥ 0, Woods–Saxon piecewise dist in its interval, shuffle permutes).
  A concrete instance (a tape of uniforms) shows the contract is satisfiable.
* Undefined behaviour, C++ exceptions and non-termination are distinct outcomes:
  `Res α = Except Err α`, `Err = ub _ | throw _ _ | fuel`.  `do … while` loops without a bound take a
  fuel argument; `fuel` means "not finished after that many iterations"; theorems quantify over all fuel
  and fuel monotonicity is proved.
* `int`/`size_t` are unbounded `Int`/`Nat`, except double→int and double→size_t
  conversions, whose out-of-range cases are UB outcomes (that UB is reachable).

Layout: `Verif/Model/*.lean` (definitions only, with citations), `Verif/Spec/*.lean` (small independent
specifications), `Verif/Lemmas/*.lean`, `Verif/Props/*.lean` (the property theorems, with non-vacuity examples).

## 2. Plan per property

"any F" = proved for an arbitrary arithmetic without laws (so for IEEE doubles); ℝ = for exact real arithmetic; XReal = for reals with
IEEE special values.

| id | what is modelled | how proved |
|----|------------------|-----------|
| C01,C02 | `FastExp` ctor + operator(), debug/release | ℝ: floor bounds, Taylor inequality for exp |
| C03 | `NucleonCommon::thickness` | list induction + C01 |
| C04 | `boundary` incl. UB on empty list | loop invariant on running min/max |
| C05,C06 | `participate`, `sample_constituent_positions`, `set_participant` | case analysis, any F |
| C07 | same | ℝ algebra; measure of `{u | q < u}` |
| C08 | `sample_constituent_positions` | list induction (sum of positions) |
| C09 | `calc_sampling_width` | ℝ algebra; variance of recentred independent variables |
| C10 | function passed to `toms748_solve`, both fits | calculus: substitution in the overlap integral; monotonicity. The root finder itself (Boost) is a parameter with stated contract |
| C11 | `Nucleus::create` dispatch | string case analysis |
| C12–C15 | `sample_nucleons` of all five nucleus classes | loop induction; relational argument for C13; spherical identity for C14 |
| C16 | rotation formulas | polynomial identities from cos²+sin²=1 |
| C17 | `Deuteron` | exp/log algebra |
| C18 | all nucleus classes over XReal | finite unless the deuteron draws exactly 0 (which is always accepted: finding) |
| C19 | `ManualNucleus::create` over an abstract HDF5 file | case analysis over every file content |
| C20 | `Event` ctor | ceil bounds |
| C21,C22 | `compute_nuclear_thickness` | fold over the subgrid = pointwise sum; cells outside the box contribute 0 |
| C23,C24 | `compute` | fold lemmas, any F |
| C25,C26 | generalized means | rpow inequalities (Mathlib mean inequalities) |
| C27–C30 | `compute_reduced_thickness`, `compute_observables` | folds = finite sums, complex polynomial identities, triangle inequality |
| C31 | `compute` | commutativity only |
| C32 | `compute` over XReal | all accumulators stay at their initial zero |
| C33–C35 | `sample_collision`, `determine_*` | ℝ algebra |
| C36,C37 | pair loops, retry loop | loop invariants over pairs and attempts |
| C38 | `Collider` ctor + `run_events` | seeding overwrites the engine; fresh distribution objects |
| C39 | `sample_collision` for p+p | all fuel: no result |
| C40 | `run_events` + `Output::operator()` | induction on N |
| C41–C43 | event number width, padding, number formatting and reading back | digit-length lemmas |
| C44,C45 | `Output` ctor + writers over an abstract file system | case analysis, induction over events |
| C46–C49 | writers | structural |
| C50–C53 | `partonic_cross_section` over file contents as characters, stream extraction semantics, kill points | induction over the file / histories |
| C54 | `MonteCarloCrossSection::operator()` loop | loop invariant |
| C55 | `CyclicNormal` | draw-sequence induction; erf calculus |
| C56–C58 | option merging and checks of `main` | case analysis.  Boost's tokenisers are parameters (`Lib`); C107–C109 plug in models of them |
| C59 | `filename_is_hdf5` | string lemmas |
| C60 | pair loop with per-pair random numbers | relational loop invariant |
| C61 | composition up to the whole program | assembling the safety lemmas |
| C62 | collision loop | distance bounds per species, all fuel |
| C63 | all loops | fuel monotonicity, any F |
| C64–C68 | `main` (src/trento.cxx) with file system, cache, output | composition, any F (C67, C68: ℝ) |
| C69 | `sample_constituent_positions`, distribution parameters | draw order any F; mean/variance by gamma integrals over ℝ |
| C70 | Woods–Saxon tables, rejection sampling of deformed nuclei | measure of the acceptance set; density algebra |
| C71,C72 | whole run over XReal | simulation relation between the ℝ run and the XReal run; NaN propagation |
| C73 | `partonic_cross_section` cut into its file system operations; a schedule interleaves any number of processes (Model/Concurrent) | invariant per process (Progress) and on the records, induction over the schedule; empty-file race as a theorem |
| C74 | `Output::Output` and the writer calls as steps of processes (Model/Concurrent) | simulation: the run in company agrees with the run alone below the output path and up to extra directories above it; induction over the schedule |
| C75 | the sampling loop, the two fits and the choice between them (Model/CrossSection) | sample formula rewritten to T_AB of C07; bracket contract of the root finder; concrete converging run as non-vacuity |
| C76 | `Fl M` (Model/Rounded): every `double` operation is the exact one rounded by a machine meeting the IEEE error bound | error of each operation propagated: distance, quotient, table lookup, sum, prefactor; cutoff moves by 1e-14 |
| C77 | whole run at `Fl M` | invariant of all nucleons along the run (RunInvariant), signs through every rounded operation |
| C78 | whole run at `Fl M` | bounds on all coordinates by naturals below 2^53, which rounding respects; indices then convert safely and the grid clamp applies |
| C79 | compute_observables over `Fl M`, full run `runAll`; specification `Spec.eccentricityCut`, `Spec.AccurateObservables` on the published grid in exact real numbers | error calculus `Near` (relative + absolute error through add, mul, sqrt, rounding), summed over the grid by induction; run-level invariant |
| C80 | Rounded carrier `Fl M` of the same model functions (depositNucleon, depositAll, compute, runAll) | index rectangles contain every cell whose centre is within the cut-off radius (error analysis of index and centre), then induction over nucleons with a two-sided bound; run-level by the records invariant |
| C81 | Rounded carrier `Fl M` of genMean, computeReducedThickness, compute, runAll; `Machine.pow_err` | error of the inner sum, perturbation of base and exponent through exp/log, run level by the records invariant |
| C82 | Model/Rounded.lean, Model/Collider.lean, Model/Nucleon.lean | error calculus (Near), runAll_records_inv |
| C83 | Model/Rounded.lean, Model/Nucleon.lean | exponent error times z exp(-z/2) <= 1, fold_near over all pairs, Lipschitz bound of exp |
| C84 | runAll over every NucleusHistory at the reals, Spec.DocumentedEvent written from the documentation | invariant 'participants own non-negative constituents' through sampling and the pair loop, then the per-event theorems C21-C29 with that hypothesis discharged |
| C85 | Nucleus sampling (Model/Nucleus) run on an engine state drawn from a measure μ that makes canonical numbers uniform and independent (Spec.IdealSource); Mathlib measure theory. | Rotation invariance of (cosθ, φ) and of Euler angles proved from the Jacobian-free circle decomposition (Lemmas/Sphere, Haar); placement loop, rejection loop and tilt/spin rotation shown equivariant; induction on nucleons and fuel. |
| C86 | As C85; fuel bounds the iterations of the do … while loops. | Measure of the acceptance region is positive (explicit density); rejLoop_fail gives q^n; union over nucleons by induction; limit. |
| C87 | As C85. | Law of a rejection loop (rejLoop_value: geometric sum times the accepted law), change of variables r = -log(..)/(2a), r = rmax*cbrt(u), spherical coordinates, rotation invariance. |
| C88 | Model/Collider runLoop on states with arbitrary leftover data | Lemmas/Clear: everything the functions read is equal; induction over attempts and events; C24 for the event object |
| C89 | Model/Collider collisionLoop, real arithmetic, measure on random states | Lemmas/Renew, RenewModel: every sampling function renews the source (its result is independent of what follows); Lemmas/Retry: geometric series; Lemmas/Complete for the rejection loops |
| C90 | as C89 | factor the attempt through its impact parameter; change of variables b = sqrt(bmin^2 + (bmax^2-bmin^2) u) |
| C91 | as C89, with the constructor of the nucleon parameters | C90 and the probability of participation at fixed distance (C07) |
| C92 | event = impact parameter, Ncoll and the computed Event; law of the event of a one-event run; the run as an iteration of one step | C88 (nothing but the random state carries over) turns the run into an iteration of the same random step; renewal of the source gives the product formula by induction, a pi-lambda argument the joint law |
| C93 | as C92 | C92_joint and the variance of a sum of independent variables under the product measure |
| C94 | probability of an attempt being a collision; the limit of unbounded fuel | an open set of random numbers puts the impact parameter near b-min and the first nucleon of each nucleus near its axis (for each class of nuclei), where the pair collides with positive probability; C89 and C92 lift this to runs, C61 excludes errors |
| C95 | the engine, generate_canonical bit by bit, and the five library algorithms, generic in arithmetic and engine | loop invariants for the rejection loops; inversion of a quadratic per segment; a gap of 2^-53 around 1/2 in the 53-bit numbers bounds the polar method |
| C96 | mt19937_64 as a sliding window of 312 words (the standard's definition) | tempering, twist and every seeding step are injective; the first 312 outputs determine the newest word of the seeded state, which determines the seed |
| C97 | the polar method with its saved number, Marsaglia-Tsang with squeeze and boost, inversion of the piecewise linear density, Lemire's integers, over an abstract engine | a calculus of draws on states with hidden saved values (laws indexed by whether a value is saved); rejection loops condition the law; polar coordinates and the change of variables of Marsaglia-Tsang; counting multiples for Lemire |
| C98 | sample_constituent_positions and thickness with the distributions of libstdc++ on an ideal tape | constituents as a vector of independent draws (calculus of C97); law of a coordinate minus the mean of independent Gaussians; smearing a Gaussian with a Gaussian; moments of the gamma law; error bound of C03 |
| C99 | std::shuffle of libstdc++ and the cyclic sampler on an ideal tape | a shuffle applies a permutation of positions that depends on the engine only; summing over the permutations that fix the tail, every permutation is hit with weight 1/n!; later shuffles only relabel positions |
| C100 | whole pipeline: nucleus sampling, collision loop, grids, on a source of independent numbers | equivariance calculus: each sampling step commutes in law with the half turn (angles by translation mod 2 pi, cosines and normals by sign), closed under bind, loops, rejection; Event.compute commutes with reversal of rows exactly |
| C101 | whole pipeline: nucleus sampling, collision loop with lazily drawn constituents, grids, on a source of independent numbers | the pair loop is rewritten as a sequence of operations on slots; two operations on disjoint or shared slots commute in law because a nucleon draws its constituents once, at first need, independently; any order of the pairs follows by transpositions; then Fubini for the two nuclei and the half turn by equivariance |
| C102 | collision loop with lazily drawn constituents, nucleus sampling with random rotation, impact parameter sampling, on a source of independent numbers | linearity of the mean over the pairs by induction over the loop with the constituents of the not yet met nucleons integrated out; nucleon density as a measure, invariant under rotations about the beam axis because of the uniform Euler angles (C85); Fubini and polar coordinates; invariance of the Gaussian constituent law under plane rotations |
| C103 | toms748_solve, detail::bracket, the secant, quadratic and cubic interpolation steps, eps_tolerance, on top of the two fits | invariant of the bracket over the evaluations; potential argument: a pass of at most four evaluations halves the bracket; concavity of the cross section in the parameter |
| C104 | participate, the double loop over the pairs, sample_collision, as before | drawing the constituents of a nucleon commutes in law with every step of the loop over pairs, so they can be drawn beforehand; then induction over the pairs |
| C105 | as for C92, C97, C98 | overwriting a weight commutes with every later step of the loop over pairs; before the constituents of the nucleon are drawn it is the law of the draw itself; the thickness is affine in every weight, its mean is taken weight by weight |
| C106 | libMix sources, `collisionMean`, `Event.compute` | C105_weight resamples one weight at a time; the squared deviation splits off 1/k times the squared slope per constituent; Chebyshev with fast_exp <= 1, union bound over cells; limit by uniform continuity near the compact set of unit-weight grids |
| C107 | `cliParse` (CmdLine.lean), `boostLib`, `mainProg` | one-step lemma per spelling, induction over the items with the loop bound; invariants for results and errors; order by congruence of store/merge/run under equal mentions of every option |
| C108 | `cfgParse` (CmdLine.lean), `boostLib`, `configure` | trimming lemmas, induction over the lines; C56_precedence with the parsers plugged in |
| C109 | `lexInt` (CmdLine.lean), `configure` | digit values against Nat.ofDigits; C56_values |
| C110 | `lexNumber`, `numberLib` (NumberText.lean), `configure`, `runAll` at `XReal` | numerals as a data type with text and value; scanner inverted; C56_values; with NaN no pair participates (invariant of the pair loop, induction on fuel) |
| C111 | `runAll`, `Collider.make`, `EventCfg.make` | simultaneous induction over the events of two runs; C25, C26, C27 per record |
| C112 | Event.compute on a constructed grid | Poisson summation (theta function bound) for the lattice sum of a Gaussian; points beyond five widths are dominated by a wider Gaussian, bounded by the same lattice sum; C03, C21, C25 - C27 for the program |
| C113 | collisions of the sampler under libMix, Event.compute, positions-only event selection | C105 (weights average out of biaffine functions of the thickness grids), C112 grid integrals with unit weights, C26 monotonicity of the reduced thickness in p |
| C114 | collisions of the sampler under libMix, Event.compute, means with the weights replaced by 1 | tangent of the power mean in each thickness (weighted power mean inequality), resampling one weight at a time (C105), C106 limit with truncation and a linear majorant |
| C115 | norm, weights and the two floors of compute_observables | homogeneity of the mean, of the moments and of the thickness loops; induction over the deposited nucleons; C111 and C28 for the run |
| C116 | the nucleon, event and collider functions with two sets of constants | homogeneity of every formula; induction over constituents, cells, nucleons, pairs, attempts and events; C115 for the mean and the eccentricities |
| C117 | Event.compute with two grids; runAll twice | C21 (deposition is direct summation at cell centres), C25, C27, C28 and a sum over the embedded cells; joint induction over the events of the two runs |
| C118 | Event.compute on the nucleons and on the translated nucleons | C21 (deposition is direct summation at cell centres), invariance of the thickness under translation, C25, C27, C28 and a sum over the displaced cells |
| C119 | Event.compute on two or three lists of nucleons | induction over the list for any arithmetic; C21 (deposition is direct summation) and invariance of the sum over constituents under permutation; C25, C27, C28 |
| C120 | collisionLoop with two ranges as functions on the probability space of the source | C90 (mixture over impact parameters) for both ranges, the attempt at fixed b does not depend on the range; C89 (retries do not bias) |
| C121 | runAll, i.e. construction, seeding and event loop, with number-events as the only difference | the loop for k+m events is the loop for k followed by the loop for m (C88); sample_collision does not read the number of events |

## 3. Trusted base

* **Lean's kernel** (4.33.0), and Mathlib's definitions (reals, measures, gaussian and gamma distributions) for what the statements mean.
* **Axioms**: every claimed theorem depends on a subset of `propext`, `Classical.choice`, `Quot.sound`; the list per theorem is in
  `AXIOMS.md`.  No axioms were added; nothing rests on compiled code.
* **The transcription** of the C++ sources into `Verif/Model/*.lean` (each definition cites file and lines).

### Modelled (all of src/)
| source | model |
|---|---|
| src/fast_exp.h | `Model/FastExp.lean` |
| src/random.{h,cxx} | `Model/Random.lean` (engine, distributions as an interface), `Model/CrossSection.lean` (`CyclicNormal`), `Model/LibRandom.lean` (`std::mt19937_64` and the distributions of libstdc++ that implement the interface) |
| src/nucleon.{h,cxx} | `Model/Nucleon.lean` (nucleons, participation), `Model/CrossSection.lean` (fits, Monte Carlo, cache) |
| src/nucleus.{h,cxx} | `Model/Nucleus.lean`, `Model/Species.lean` |
| src/event.{h,cxx} | `Model/Event.lean` |
| src/collider.{h,cxx} | `Model/Collider.lean` |
| src/output.{h,cxx}, src/hdf5_utils.{h,cxx} | `Model/Output.lean`, `Model/Text.lean`, `Model/RealFmt.lean`, `Model/Species.lean` (HDF5 reading) |
| src/trento.cxx | `Model/Program.lean`; `Model/CmdLine.lean` (Boost's command line and config file parsers with trento's options, `lexical_cast` to integers); `Model/NumberText.lean` (`lexical_cast` to `double`) |
| several processes sharing cache and output directories | `Model/Concurrent.lean` |

### Idealised or abstract — what the theorems do *not* say
* **Rounding and overflow of `double`**: numeric theorems are about exact reals (or reals with IEEE special values); structural ones hold for any
  arithmetic; C76 and later theorems about `Fl M` include rounding and gradual underflow (no overflow, NaN, or fused multiply-add).  `XReal` has no signed zero, no overflow, no rounding; `expint(0)` and `erf_inv(±1)`, which throw in Boost, are not reachable in it.
* **`int`, `size_t` range**: unbounded, except conversions from double (explicit undefined behaviour) .  A negative `constit-number`
  would be converted to a huge `size_t` (the vector then throws `std::length_error`); the model only treats it where the code would use it as int.
* **Random numbers**: `std::mt19937_64` and the libstdc++ distributions are an interface (`Rng`) with the contract `LawfulRng`
  (canonical in [0,1), gamma ≥ 0, piecewise distribution inside its support, shuffle permutes); `Model/LibRandom.lean` models the actual library
  (mt19937_64 per the C++ standard; the algorithms of libstdc++ in GCC 13) and C95 proves that it keeps the contract.  In rounded arithmetic the contract is `LawfulRngFl` (used by C77–C82): C95_exact and C95_rounded prove its clauses on uniform numbers, gamma variates and indices (and shuffles) for the same library with every operation rounded; its clause on piecewise linear variates (at most one unit outside the table) stays an assumption about libstdc++, since a table with two almost equal neighbouring densities lets the division by the slope amplify the rounding error of the square root.  The model of the engine was
  evaluated: seed 5489 gives 14514284786278117030 first (checked by the kernel in `Props/Twister.lean`) and 9981545732273789042 as the 10000th number,
  the value the standard prescribes.  Not proved: that the rejection loops of the library end for every state of the Mersenne twister.  Distributional statements (C07, C09, C69, C70, C55, C85–C94) are about ideally distributed draws; C97 and C98 are about the algorithms of libstdc++ fed by an ideal engine (a tape of
  independent uniform numbers).  That mt19937_64 behaves like such a tape is not, and cannot be, proved.
  The piecewise linear distribution is represented by its table as the C++ standard constructs it (libstdc++ of GCC 13 evaluates the density at
  shifted points, bits/random.tcc:3118).
* **Boost**: `program_options` tokenisation and value parsing are parameters (`Lib`); `Model/CmdLine.lean` models the command line parser, the config file parser and `lexical_cast` to integers, written down from Boost's sources
  (C107–C109); `Model/NumberText.lean` models `lexical_cast` to `double` (C110); `lexical_cast` to paths and the layout of the help text stay abstract. Also: `toms748_solve` (interface `Toms748` with contracts `LawfulToms`, `BracketingToms` and `SafeToms`; `Model/Toms748.lean` models the algorithm itself, written down from Boost's header, and C103 shows that it meets the contracts and converges), `erf_inv`, `expint` (as the mathematical functions), `filesystem`
  (an abstract tree `FS` with permissions `OsEnv`; one process, except in C73/C74, where any number of processes interleave operation by operation).
* **Library I/O**: iostream formatting and extraction are modelled (`Text`); reads of `double` values: no `inf`/`nan`, no overflow.  printing of doubles:
  correctly rounded decimal of the exact real (`RealFmt`).  HDF5 files are lists of datasets (`H5View` for reading, `H5Dataset` for writing); manual nuclei are read as exact numbers (float32 in the code).
* **Memory**: allocation never fails; move/copy semantics are values.
* **Non-termination** appears as "no amount of fuel suffices".
* The Python/CMake parts and the tests of the project are not modelled.

## 4. Findings (each shown by a theorem where a property id is given)

* *Cache* (C52, C53): the file is opened for appending before the fit, so a failed or killed first run leaves an empty file and every later run
  compares uninitialised variables; anything that is not a number makes the search loop forever; a torn record lends a foreign or
  truncated value; columns merge for parameters ≥ 100 (setw(10)); only the last directory level is created; a null `HOME` is dereferenced.  Values are stored with 7 digits, so the first run and cached runs
  differ (C51).
* *Concurrent runs* (C73, C74): simultaneous first runs: the second one reads the empty cache file of the first; two runs into one output directory can both pass the
  emptiness check and overwrite each other.
* *Monte Carlo cross section* (C54): the sum of n+1 samples is divided by n (biased, may be negative; the first pass divides by zero and its estimate is -inf, so the second pass always resets the reference); constituents are not recentred there although they are in events.
* *Seeding* (C66): the fit draws random numbers before the engine is seeded, so the first run with constituents for given parameters is not reproducible by its seed.
* *CyclicNormal* (C55): the reshuffle happens on the second draw of a pass, so values can be repeated or missing in that pass; `cache_size` 0 is undefined.
* *Deuteron* (C18): a uniform draw of exactly 0 gives a NaN acceptance probability, which is accepted, and non-finite positions.
* *Options*: `constit-number` 0 is accepted and the run never ends (C72); widths of 0 and NaN pass the checks; impact parameter ranges out of reach never end (C39, C62); `number-events` ≤ 0 converts log10 of it to int; `grid-step` larger than the grid: `nsteps` 1 → reads past the row end when writing text (C47);
  `nsteps` 0 → out-of-bounds write; huge coordinates → undefined double→int conversion.
* *Output*: an existing empty regular file is accepted as directory and swallows all events (C45); failing opens are silent (C45); `--no-header` changes the precision from 10 to 6 digits (C48); an empty directory as HDF5 path raises an
  HDF5 exception that is not derived from `std::exception` and terminates the program (C58); the impact parameter column merges with the event number for b ≥ 1000 (C42).
* *Manual nuclei* (C19): datasets of rank > 3 overrun an array; A = 0 divides by zero; `nconfigs` = 0 wraps an index; the radius comes only from the first configurations with 500 nucleons.
* *Event*: without overlap the centre of mass is 0/0 = NaN (harmless, C32); for p < 0 a thickness below 1e-12 counts as zero (C26).
* *FastExp*: with debug checks an argument that rounds beyond the table edge throws (C02).
* *Program*: a config file that is a directory or unreadable is silently ignored; a repeated flag is an error; paths with spaces are rejected.
* *Command line and config files* (C107–C109; behaviour of Boost that trento inherits): `--output --ncoll` takes `--ncoll` as the name of the output (only a token that is literally the name
  of an option, such as `-q`, is refused as a value); `--=x` is a positional argument; a negative number as positional argument is an unknown letter; a config file with the line `[]` is undefined
  behaviour (`C108_empty_header_ub`; for this reason the parser hypothesis of C58 fails for Boost's parsers, and `C108_reported` proves the exit status for files without such a line); `#` ends a value, so a path in a config file cannot contain it; settings under a section header are rejected; `1e3` is not a number of events.
* *Special values* (C110): `nan`, `inf` and `nan(...)` are accepted by all real options; `nan` passes the width checks, and for `--b-min`, `--b-max`, `--constit-width` (or `--nucleon-width`, whose value is its default) the program then
  searches for a collision forever; so it does for `--b-max inf`.
* *Deuteron radius* (C87): the source comment speaks of the inter-nucleon radius, but the nucleons are placed at +r and −r, so the Hulthén density is that of one nucleon about the centre and the separation is 2r.
* Help text omits `Xe2`; the coefficient .63 in the cutoff of deformed nuclei is slightly below Y20(0) = 0.6308 (harmless, C70).
* A single constituent (`--constit-number 1`) with `--constit-width` below `--nucleon-width`, or widths that differ by less than 1e-6, is placed exactly at the nucleon
  (`calc_sampling_width` returns 0): the nucleon then has the width of the constituent, and `--nucleon-width` only bounds the impact parameter.  C98 holds in all other cases.
* The default `b-max` is the sum of the radii `R + 3a` plus `6 w`, but nucleons are drawn up to `R + 10a`: with the default some collisions at large impact parameter are never
  asked for.  So with the default `b-max` only the inequality of C102 (`C102_bound`) holds, and `⟨Ncoll⟩ σ_AB = A B σ_NN` needs an explicit, larger `--b-max` (`C102_total`).  The
  missing part is small (the densities beyond `R + 3a` are), but it is a bias, not a rounding effect.

## 5. Testing the theorems against wrong programs

`tools/mutants.py` lists edits of the model (realistic bugs); `tools/mutate.py` applies each to a scratch copy, rebuilds, and records which theorems fail.  Results are in
`seeded/LOG.jsonl`.  Survivors led to new or stronger theorems (field `tightened`).
