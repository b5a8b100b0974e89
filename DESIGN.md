# Formal model of pdp3 (relativistic 2.5D r-z particle-in-cell code)

## 1. Layout

* `properties.jsonl`  the properties, in English.
* `lean/Verif/*.lean`  model (`Model*`/named modules), specifications and theorems.
  - a module `X.lean` models code; every definition cites `/repo` file and lines;
  - a module `XSpec.lean`/`XProps.lean` holds the statement-side vocabulary and the
    property theorems (names start with the property id, e.g. `C01_...`).
* `MANIFEST.json`  property -> theorem names.
* `AXIOMS.md`  the axioms each theorem of the manifest depends on.
* `seeded/LOG.jsonl`  log of deliberately broken programs and which declarations no longer compile. A build stops at
  the first module that breaks, so `property_theorem_failed: false` means that only lemmas broke before any property
  theorem was reached: such an entry does not by itself show that the named claim sees the edit. Where `deep` is
  present, broken lemmas were stubbed in the scratch copy until the claim was elaborated: `claim_fails` (its own proof
  breaks), `rests_on_stub` (it uses a broken lemma; undetermined) or `survives` (it does not see the edit). A broken
  proof is not a refutation either: seed Y7 leaves its claim true and breaks proofs all the same.

## 2. Trusted base

* Lean 4.33 kernel. Every theorem depends at most on `propext`, `Classical.choice`,
  `Quot.sound` (Mathlib's standard three). No own axioms, no `sorry`, no `native_decide`/`bv_decide`.
* The transcription of C++/Python into Lean definitions (by hand, cited line by line).
* Modelling conventions below.

## 3. Modelling conventions

* **Numbers.** `double` is modelled by exact real numbers. Rounding, overflow, NaN,
  infinities, `-ffast-math` are not modelled, except that Double.lean models rounding to nearest even for the
  counting of steps (C59), and Rounded.lean bounds the error of every value in the motion of a macroparticle (C101), for IEEE 754
  and for `-ffast-math` alike. RoundedPush.lean adds the relativistic pusher of Boris (C108), and FieldRounded.lean does the same for the updates of the fields (C102). Where the code can divide by zero or take
  the logarithm/square root of a non-positive number for a reachable input, the model either
  returns a fault (`none`) or the theorem carries the exact guard and a companion theorem
  shows what happens outside.  `int` is modelled by unbounded integers (no overflow);
  conversions to `unsigned int` reduce modulo 2^32 (`u32`), and `atoi` is modelled on 32 bits.
* **Memory.** Field arrays are partial maps from (array, i, k) to values: `none` is "never
  written or not allocated". Reads of such cells and writes outside the allocation make the
  whole execution `none`. C `int` indices are `Int`, so negative indices are representable.
* **Loops.** `for` loops are folds over explicit iteration lists. `#pragma omp for` loops are
  folds over an arbitrary permutation of the iteration list, or over the list in order where the
  iterations touch disjoint data; the implicit barrier between
  loops is sequencing. `omp critical` increments are atomic.
* **Constants** are the decimal literals of include/constant.h.
* **Random numbers.** `uniform()` is an arbitrary oracle; `random_reverse` is modelled exactly. Only C91, C92 and C93
  give the draws a law: independent, and uniform up to the distance of two doubles. That the C++ engine has this law is
  trusted there.
* **I/O.** A data file is the list of numbers written to it; `fmt6` (Probe.lean) models the
  rounding to six significant digits (ties up instead of to even).
* **Preprocessor.** Default configuration (no LEGACY, no HDF5, no EXPERIMENTAL); the pusher
  variants (boris classic/adaptive/relativistic, vay) are all modelled by a parameter.

## 4. Plan per property

| id | model | proof |
|----|-------|-------|
| C01 | `chargeWeighting` = fold over particles of four bounded `inc_rho` calls, three radial branches | per-branch rational identity, induction over particles, finite-sum lemma |
| C02 | same | ceil arithmetic, sign of each weight |
| C03 | same | commutation of increments, permutation induction |
| C04 | `azimuthalCurrent` | as C01; r=0 excluded (division by zero), shown separately |
| C05 | `simpleCurrent` emitting J increments with logarithms | field_simp/ring identity per node, log terms cancel |
| C06 | `currentDistribution` case split into 1-3 sub-moves | composition of C05 over path pieces; corner crossing is refuted with a witness |
| C07 | `strictMotion` | C05-like; radial crossing refuted with a witness |
| C08-C15 | `eUpdate`, `hUpdate` as imperative loops on partial memory; refinement to pure updates | refinement lemma for disjoint-write loops under any permutation; algebra; induction on steps; summation by parts for the energy |
| C16 | `getFieldE`, `getFieldH` on partial memory | index arithmetic |
| C17 | same | refuted by witness; exact weight sum computed; linearity; error for fields that vary (`C17_smooth_partial`, PathGrid.lean) from the sign of the weights |
| C18-C21 | `borisPusher` (3 modes), `vayPusher`, `getGamma`, `getGammaInv` | real algebra |
| C22-C24 | `halfStep`, `reflection`, `backPosition`, `backVelocity`, bunch reflection | case analysis, induction over steps |
| C25-C27 | loader, `random_reverse` | sums over lists, digit induction |
| C28-C30 | bunch constructor, `bunch_inject`, `init_beam` | as C25; division arithmetic; induction over steps |
| C31-C35, C48 | run loop, probes, files, reader, cache | list arithmetic, induction, refutations with witnesses |
| C36 | limitations checker | decision logic |
| C37-C39 | diagnostics | finite sums, triangle inequality |
| C40-C42 | tridiagonal solver, FFT, Poisson solver | induction over loop index / log2 size |
| C43-C46 | lib/main/geometry | decision logic, induction on path |
| C47, C49, C50 | step composition | composition of the above |
| C51 | field step of C08-C15 | discrete energy with a cross term, bound of the curl operator by a summation inequality, induction on steps |
| C52 | one cycle of a particle without field | algebra; refuted for azimuthal motion |
| C53 | removal of finished bunches with iterator validity | transition on list and iterator; refutations |
| C54 | thermal velocities per component | inequalities; refutation |
| C55, C56 | deposition and interpolation weights | comparison with intersection volumes; locality by index arithmetic |
| C57, C58 | pushers | the Boris map solves the implicit mid-point equation, uniqueness; Vay refuted |
| C59 | `double` addition and division with round to nearest even | error accumulation by induction, few-digit exactness, closed computations for the shipped configurations |
| C60 | Maxwell-Jüttner sampler with its two tables | monotonicity of tables checked entry by entry in the kernel, analysis of branches |
| C61-C64 | all probes of a run on one file system, buffers | disjoint paths (injective directory names), induction over steps and probes |
| C65, C66 | reader on the file system of the run | round trip of formats, composition with C33 |
| C67-C70 | `Parameters` on any XML tree, `atoi`/`atof` on any text | numerals by induction on digits; layout by description type; irrelevance by bisimulation of trees; faults by inversion of the loader |
| C71-C73 | `Parameters` of the Python tools, `os.path`, index helpers | both loaders inverted on one tree; paths as walks through directories |
| C74 | `j_weighting` for every path shorter than a cell | case analysis on the crossings; positions of all increments |
| C75, C76 | the main loop as a whole (`Cycle`) | invariants of the cycle: no azimuthal component; particles inside, slower than light; with azimuthal motion the exact cause of a fault |
| C77 | the same loop from unset memory, probes | frame property of parallel regions: what is never stored stays unset |
| C78 | set-up, beam and cycles together (`ProgRun`), the shipped configuration | invariant: bunch macroparticles wait at rest until their injection; exact condition of a fault |
| C79 | `init_particles` as a whole (`InitPlasma`), the shipped configuration | composition of C25, C26, C54, C60; bounds of the tables by kernel evaluation |
| C80 | the pushers (`push`) | the pushers as rotations in momentum space and their inverse; the growth of the momentum along the field in a Vay push by algebra |
| C81 | the pushers (`push`) | one lemma for all sign changes of polar and axial vectors (`Signs.push`) |
| C82 | `lib::bicubic_interpolation` as a parallel region with shared weights | races in which all threads store the same value are harmless in every interleaving (`agreed_loop`) |
| C83 | `IOHDF5`, the `LEGACY` dumps, `H5Reader` without cache; the HDF5 library is a map from names to tables | induction over the iterations to the explicit contents of the file; reader by unfolding |
| C84 | `IOText`, the `LEGACY` dumps | induction over the iterations with the contents of every file as invariant |
| C85 | tools/quick_parameters_calculator.py on the settings as tools/lib/parameters.py reads them (C71) | unfolding; maximum over the bunches, comparison with `TimeLoop`, `mkChecker` and the charge of C28 |
| C86 | `get_frame` of tools/lib/plain_reader.py with its memory of file counts and tools/lib/tinycache.py with arrays as objects; events get, change, restart, files | invariant over the history: every cached array is a frame that only grows |
| C87 | tools/lib/h5_reader.py with its cache | injectivity of the keys, invariant over the history, reshape after flatten |
| C88 | the draws of a build for tests (energies, directions, bunch radii, places of injection) in the program of C78 | determinism of every phase modulo fields that are set before use; induction over the iterations |
| C89 | loading (C79), charge density (C55), field start values (C13), cycle (C06) and beam step (C78) together | charge of a species is a common shape times charge times density; induction over cycles; witnesses for unequal numbers and for the beam |
| C90 | every phase of a cycle on macroparticles at rest in zero fields (pusher, moves, reflection, currents, field update) | each phase has a closed form; induction over the cycles |
| C91 | rejection loop of the sampler with a product measure over all rounds | the runs that end in round m with an energy in a set are a product set; geometric series; Fubini for the weight |
| C92 | tables of both branches, interpolation, rejection | a fixed point exponential with proved error bounds checks 718 table entries of the relativistic branch in the kernel; convexity bounds the interpolation; tails of the guess, layer cake formula for the rejection; all 1000 entries of the classical table are checked against the series of Maxwell's distribution, and the second derivative bounds the interpolation |
| C93 | velocities from an energy and three draws (C54), with the law of the draws and of the energies (C91, C92) | odd functions have mean zero; bounds of the mean over the cube; mean of the energy from its tails (layer cake), explicit integrals; below one electronvolt the tails of the exact law grow with the temperature (monotone likelihood ratio) |
| C94 | whole cycles (C75, C76), with all macroparticles as one list (`tagged`); spec: mass at a place, velocity and ratio of charge to mass | a cycle is one journey of each macroparticle and a sum of increments; both are linear in the weight; sums over macroparticles depend on the masses by kind only (finitely supported functions) |
| C95 | whole cycles with arrays of fields; spec: factor of each array and images of macroparticles | simulation relation: every region, push, move and deposit maps images to images; induction over cycles |
| C96 | runs of the field updates (C12) with any deposits; spec: smooth axially symmetric solutions of Maxwell's equations (`Wave.Solves`), values at the staggered nodes, mean square error over the cylinder | Taylor's formula along lines bounds what a solution leaves in each update, the axis included (odd functions of the radius); the difference of run and solution obeys the updates with this remainder; the discrete energy (C51) as a positive form bounds its growth per step; induction |
| C97 | loading of a species (C25, C26, C79) with the reversed digits of the numbers of the macroparticles as draws (C27); spec: charge in a cylinder, integral of the linear density | digits reversed in coprime bases: Chinese remainders count the pairs in each cell to within one; sums of products of monotone functions against cells; quotient of two means. The limit is the configured density times chamber volume by plasma volume, so the claim itself is refuted for every chamber |
| C98 | `run` of the three movie scripts: interval, frame range, the loops over data sets and frames, without figures and encoder; spec: multiples of the step in the range with their times | blocks of frames one after the other are the range of their numbers (induction); exact description of what is shown for every range and step; from it the claim for whole data sets, and its failures; with C32 from the simulator's arrays to the images |
| C99 | the attributes that the converter reads from the configuration, and everything after as an arbitrary continuation | the third attribute does not exist: the converter raises for every configuration, so the claim is refuted; nothing of it can be proved |
| C100 | ticks and labels of `PlotBuilder` as the movie scripts make it (size of a tick, `linspace`, three digits, hidden labels); spec: labelled places (`AxisReads`) | the size of a tick is between an 80th and a 40th of the longer side; the spacing of the labels exceeds the last of three digits, so they increase; label and coordinate differ by a cell and half a percent at most; witnesses for the stretched axis, the digits and thin chambers |
| C101 | motion of a macroparticle and the numbers of its cells with a bounded error of every computed value (Rounded.lean), and rounded operation by operation (RoundedIeee.lean); spec: places inside the chamber, numbers of nodes | the computed velocity exceeds that of light by a millionth at most; induction over the cycles with bounds half a cell from the walls; errors are far below a thousandth of a cell; closed computation at the wall |
| C102 | updates of the fields with a bounded error of every computed value (FieldRounded.lean), rounded operation by operation (FieldRoundedIeee.lean), and sums of deposits rounded call by call in any order (FieldRoundedCurrents.lean); spec: energies of differences of fields (FieldRoundedProps.lean) | residual of a rounded step bounded in the energy norm by the curls of alternating fields; energy form of the scheme decreases, so the error grows by a residual per step; factor of growth over all steps below e; error of each operation propagated through the formulas |
| C103 | the cycle of System.lean as the macroparticles see it (CycleParts.lean); spec: rectangles of nodes and points, states that look the same inside (Causality.lean) | updates read only neighbouring nodes; interpolation reads nodes at most two cells away; a macroparticle moves less than a cell and deposits less than two cells from its start; induction on cycles (CausalityProps.lean) |
| C104 | `new`, `new[]`, `delete`, `delete[]` as programs over a heap of blocks, with undefined behaviour for a wrong `delete`; constructors, destructors, threads and the cycle (HeapModel.lean) | ownership of blocks: each function changes only what it owns, in every interleaving; induction on sizes, histories and cycles (HeapProps.lean, HeapLeaks.lean). Fields, currents, the solver and the main loop violate it |
| C105 | Program.lean, Output.lean and ResultReader.lean put together: each iteration is followed by `dump_data` on the arrays and macroparticles it left (ProgOutput.lean) | the run with output is split into a run without and the output of its states, by induction; then C61, C63, C65, C66 and C78 apply (ProgOutput.lean, ProgOutputProps.lean). The time of a frame is violated (ProgOutputTime.lean) |
| C106 | `print_data` with `setw`, its two buffers of 100 characters and the product of two `int`, called from `dump_data` (Report.lean) | induction on probes and iterations: the text is that of the list of lines; lengths of the buffers from the length of the path of a probe; words of a line (ReportProps.lean). Long names, long runs and probes of absent species violate it |
| C107 | `compare` with the deletion of NaNs and `np.allclose` with broadcasting, `test_example`, the main part with its exit status, test/functional/test.py (FuncTest.lean); building and running the program, and `regression`, which compares no numbers, are not modelled | induction on the list of components and on the entries (FuncTestProps.lean). The exit status, NaNs in other places and small components violate it |
| C108 | relativistic pusher of Boris, rotation of the velocity and a whole cycle with a bounded error of every computed value (RoundedPush.lean), and rounded operation by operation (RoundedPushIeee.lean) | length of vectors under rounded scaling, addition and rotation (RoundedPushProps.lean); the momentum grows by the force and by `1024 EPS M³` per cycle, as the division and the multiplication by the factor are nearly inverse (RoundedPushRun.lean); induction on the cycles (RoundedPushHistory.lean). Momenta of 2^30 violate it |
| C109 | the choice of probe and frames, the sum of scipy and the shown curve (Spectrum.lean) | orthogonality of the roots of unity gives the amplitudes of any superposition; invariant of the range over the probes and components (SpectrumProps.lean). The frequencies are too high, the mean is doubled, `H_phi` is a hundredfold, a second schedule gives other times, and a probe can be hidden |
| C110 | the subtraction of the directed velocity and the histogram (VelocityHist.lean) | induction on the loops gives the counts, the segments follow each other without gap; the cell of the subtrahend by the floor (VelocityHistProps.lean). The slowest are not counted, and the directed velocity is taken from another cell |
| C111 | the rounded field step of C102 with `divH` and `gaussDefect` of C08 and C10 (FieldRoundedLaws.lean) | the laws are exact for exact steps and linear, so one step adds the rounding errors of the four values around the cell; induction on the steps. In IEEE arithmetic with the currents summed in any order (`C111_ieee_gauss`) the charge not accounted for is a rounding error as well. The deposits themselves are exact numbers |
| C112 | the pushers of C19 and C57 applied again and again with the fields at the middle of the steps; `LorentzMotion` states the differential equation with Mathlib's derivative, `gap` the distance of two vectors (PushConverge.lean, PushConvergeCases.lean) | Taylor's theorem for the residual of the solution in the equation of one push (C57), stability of one push, discrete Gronwall by induction on the steps. `C112_boris_error` has explicit constants and the floor the cut at 1e-15 m/s leaves; `C112_boris_converges_partial` is the order for particles above the cut. Start velocities that are not shifted by half a step enter as the gap at the start. Negations: a particle at rest in a weak field never starts, the adaptive pusher stays classical below 5e7 m/s, the Vay pusher does not turn particles |
| C113 | the whole cycle of a macroparticle (`cycles` of C24) with interpolated fields; `LorentzPath` states the equation of motion of a charge in the r-z half plane, `GridField` the error of the interpolation near the path (PathConverge.lean, PathConvergeCases.lean); `NodeField` the error of the values at the nodes (PathGrid.lean) | residual and stability of C112 with other fields, Taylor's theorem for the place, discrete Gronwall for both; the distance from the walls is part of the induction. `C113_path_partial` is for motion without azimuthal velocity. Negations in the limit of small time steps: free motion around the axis (`C113_azimuth_violated`, the turn of the velocity has the wrong sign), the start (`C113_start_violated`, place and velocity are not staggered) |
| C114 | the loops over the probes, the pieces of windows with Python's slice assignment for lists and arrays, and the points of the curves (TimeSeries.lean); `FaithfulReader` and `FaithfulPieces` state what the reader gives for the calls made, and `C114_plain_reader`, `C114_plain_pieces` prove it for the reader of the plain files (PlainSeries.lean) | induction over the probes and the pieces, invariant: the data are the values of the frames so far (TimeSeriesProps.lean). `C114_dot_partial` for probes of the point, `C114_window_partial` for windows and whole files. Negations: the times are stretched by one interval, windows away from the corner give another point, ranges that are no whole number of files give later frames, columns and rows end the search and leave a component empty, a second window adds a point, and a probe beside a window raises |
| C115 | two runs of the cycle of System.lean in chambers of different lengths; spec: a window and the window `d` cells further, with the same walls in both, the same values and the same macroparticles moved by `d` cells (Translation.lean) | each routine commutes with the move: field updates, interpolation, deposition branch by branch, half steps, walls; then the induction of C103 with two chambers (TranslationProps.lean) |
| C116 | the two loops over the probes with what each match reads and cuts, the maps, and the points of the curves (Still.lean); spec: `windowOf`, `FrameOf`, `ShowsProfile`; `FaithfulFrames` states what the reader gives (C33) | induction over the probes, invariant: the data are the wanted part of a frame of the time, or empty (StillProps.lean); linspace and rounding to rows for the coordinates (ProfileProps.lean). `C116_map_partial`, `C116_temperature_partial`, `C116_density_partial`, `C116_longitudinal_partial` for probes of exactly the window or of windows from the corner of the grid on, violated otherwise |
| C117 | the field solver of YeeModel.lean and the cycle of System.lean, twice; spec: `MirrorImage`, columns and signs of a mirror image (Mirror.lean), `Particle.mirror` (MirrorParts.lean), `MirrorState` (MirrorCycleProps.lean) | magnetic and electric update commute with the mirror on all nodes, the last column of H_z by the end walls; push, walls, interpolation and currents of a macroparticle commute with the mirror (the sums of its increments at a node, since a place on a column belongs to another cell in the mirror); induction over steps and cycles (Mirror.lean, MirrorParts.lean, MirrorCycle.lean, MirrorProps.lean, MirrorCycleProps.lean). `…_partial` for materials that do not change along the axis and bunches away from the end walls, violated otherwise |
| C118 | the field solver of YeeModel.lean, forwards and with reversed magnetic field; spec: `Reversed` (MirrorProps.lean) | one step back undoes one step; induction over the steps (MirrorProps.lean) |
| C119 | the loop over the probes of the line, the loop over the windows with its pieces and assignments to slices (of lists and of numpy arrays), the images and the ticks (SpaceTime.lean); spec: `LineNotebook.along` (the values along a line), `OnlyAcross` (lines saved by windows only); `FaithfulReader` and `FaithfulPieces` as in C114, with the same proof for the plain files | induction over the probes and over the pieces, invariant: the rows are those of the frames read so far (SpaceTimeProps.lean). `C119_line_partial` for probes of the line, `C119_window_partial` for rows in windows from the axis on and whole files; violated otherwise, and for the scales |
| C120 | both loops over the probes, the pieces of a bigger window with the assignments to slices and the cuts, the mean without cells that are not numbers, the points of the curve (WindowMean.lean); spec: `meanOver` (sum over cells divided by their number), `ShowsSeries` as in C114; `ReadsGaps` and `GapPieces` state what the reader gives for the calls made, and `C120_plain_reads`, `C120_plain_pieces` prove it for the reader of the plain files (PlainSeries.lean) | sums over lists turned into sums over sets of cells, slices of ranges, induction over probes and pieces (WindowMeanProps.lean). `C120_exact_partial` for one probe of the window, `C120_bigger_partial` for one bigger window from the corner on and whole files; violated otherwise, and for the times |
| C121 | the loops over the probes with the one list that is `data_r` and `data_z` at first, the sampling frequencies, `scipy.signal.stft` with its window, zeros and segments by the formulas of its documentation, the colours and their bars (ShortTime.lean); spec: `localAmplitude` (weighted sum over a segment of frames about the column), `ShowsSpectra` | sums of roots of unity for the window, the range of frames found in the padded signal, induction over probes (ShortTimeProps.lean). `C121_dot_partial` for probes of the point, `C121_oscillation` and `C121_constant` say what the amplitudes are; violated for windows, for the scale of the second image, and at the beginning of the range |
| C122 | both loops over the probes of the first configuration with one reader for each simulation, the cell (by the place, or fixed in the notebook for four), the curves over the times of the first one (Compare.lean); spec: `Compared` (a simulation), `Compared.Reads` and `SavesCell` (how the cell is saved), `ShowsSeries` as in C114 | induction over the probes with the data either all read or all untouched (CompareProps.lean); `C122_alike_partial` for any number of simulations with the same steps, intervals and cell; violated for other intervals, other grids, four simulations and HDF5. `C122_plain_frames` shows that the plain reader gives the windows |
| C123 | the words of `echo $i`, `cut`, and the substitution of sed as leftmost and longest match on the lines of the file (NbRun.lean); spec: `NbLine` with its text in JSON, `Assigns`, `NbLine.After` (the last argument for the variable of the line counts) | induction over the arguments, the strings of JSON and the text (NbRunProps.lean); `C123_sets_partial` for lines other than the last ones of cells and plain values, `C123_unknown`; violated for last lines, values with `=`, `"` or two spaces, and names behind quotation marks |

This table is the plan; section 5 records what was established and where the code disagrees
with the property.

## 5. Status and disagreements

The status of each property, the theorems and what is missing are in `MANIFEST.json`. The axioms of each
theorem are in `AXIOMS.md`.

### 5.1 What is modelled, by file

A line counts as cited if the comment of some definition names it. Short uncited pieces (braces, includes, messages) are left out.

| file | lines | cited | not cited (7 lines or more) | contents of the uncited lines |
|---|---|---|---|---|
| src/boundaryMaxwellConditions.cpp | 38 | 0 | 1-38 | initial field of the boundary (class is not used by the run) |
| src/bunch.cpp | 153 | 144 |  | includes, comments |
| src/chargeDensity.cpp | 49 | 27 | 1-7 31-37 42-49 | accessors; `inc_rho` appears at its call sites |
| src/current.cpp | 135 | 101 | 84-106 | accessors; `inc_j_*` appear at their call sites |
| src/eField.cpp | 316 | 294 | 1-11 | default constructor |
| src/field.cpp | 40 | 30 | 1-9 | default constructor |
| src/geometry.cpp | 107 | 88 | 1-7 | destructor, `get_dr`, `get_dz` |
| src/hField.cpp | 267 | 253 |  | includes |
| src/ioHDF5.cpp | 294 | 112 | 1-7 43-83 146-196 212-294 | groups, dumps of the state (never called) |
| src/ioText.cpp | 166 | 52 | 1-25 44-55 78-99 112-166 | dumps of the state (never called) |
| src/lib.cpp | 312 | 243 | 1-7 9-35 196-221 | AVX square root, `read_file_to_double` |
| src/limitationsChecker.cpp | 140 | 128 |  | includes, comments |
| src/loadInitParam.cpp | 589 | 492 | 1-48 87-120 126-137 | order of the set-up calls, part of the `LEGACY` dump |
| src/main.cpp | 73 | 68 |  | includes, comments |
| src/math/fourier.cpp | 174 | 152 | 1-16 | includes, comments |
| src/math/maxwellJuttner.cpp | 418 | 393 | 1-19 | includes, comments |
| src/math/rand.cpp | 54 | 27 | 1-9 15-21 27-36 | the C++ random engine (its draws are arbitrary inputs, with a law in C91 and C92) |
| src/parameters.cpp | 318 | 281 | 201-209 302-318 | `init_boundary` (never called), `LEGACY` dump switches |
| src/particles.cpp | 1373 | 1329 | 1-9 77-100 | unused variants for all macroparticles (the versions for one are modelled) |
| src/particlesDensity.cpp | 278 | 232 | 238-278 | code in comments, increments (at their call sites) |
| src/particlesList.cpp | 54 | 15 | 1-13 25-49 | loops over the species |
| src/pdp3Time.cpp | 18 | 8 | 1-10 | not modelled |
| src/poisson.cpp | 11 | 0 | 1-11 | constructor only |
| src/poissonDirichlet.cpp | 98 | 91 |  | includes |
| src/poissonNeumann.cpp | 91 | 30 | 1-20 51-91 | modelled up to the end of the first transform, where it faults; the rest is not |
| src/probePlain.cpp | 224 | 206 | 1-9 61-68 | destructor |
| src/temperature.cpp | 306 | 237 | 1-13 39-56 251-280 | set-up, reset and increments (at their call sites), choice of post processing |
| src/temperatureClassic.cpp | 159 | 104 | 1-13 102-132 | the same |
| tools/lib/h5_reader.py | 247 | 177 | 1-41 85-107 | constructor, checks of ranges of rows and columns (never called) |
| tools/lib/parameters.py | 243 | 231 | 1-8 | includes, comments |
| tools/lib/plain_reader.py | 616 | 438 | 1-19 33-63 78-84 95-103 128-230 | constructor; the checks of arguments are part of the readers that call them |
| tools/lib/plot_builder.py | 288 | 112 | 1-9 19-29 52-81 93-135 210-288 | figure, fonts, images and colour bar (matplotlib) |
| tools/lib/tinycache.py | 46 | 16 | 1-13 15-31 | directories and names of the files of the cache, bound to a file (never used) |
| tools/movie_1_density_map.py | 226 | 52 | 1-42 67-75 91-127 148-226 | arguments, reader, colours, encoder |
| tools/movie_1_temperature_map.py | 216 | 47 | 1-48 62-70 86-122 143-216 | the same |
| tools/movie_3_E_RHObeam_r_z_map.py | 247 | 79 | 1-57 73-87 109-121 168-247 | the same |
| tools/plain2hdf5.py | 125 | 48 | 1-11 60-125 | never reached (C99), arguments |
| tools/quick_parameters_calculator.py | 97 | 72 | 1-17 | arguments, text around the numbers |
| tools/setup.py | 13 | 0 | 1-13 | not modelled |

Of the shell scripts, tools/nbrun.sh is modelled in lines 28-33 (C123). Headers are cited where a definition depends on them (structures of `parameters.h`, `particles.h`, `geometry.h`, `probe.h`,
`bunch.h`, constants). Preprocessor branches: see section 3.

### 5.2 What is not modelled

* The HDF5 library, dumps of the state of a `LEGACY` build (never called), figures and videos beyond the choice of the frames
  (C98) and the labels of the axes (C100), and the notebooks other than the spectrum (C109), the velocity distribution (C110), the curves over time (C114), the maps and profiles of one time (C116), the maps of a line over time (C119), the mean temperature of a window over time (C120), the short-time spectra (C121) and the comparison of temperatures (C122).
* The parsers of XML (tinyxml2, xml.dom): the model begins with the tree of elements.
* Rounding of `double`, except the counting of steps (C59, Double.lean), the motion and the cells of macroparticles (C101, Rounded.lean,
  RoundedIeee.lean), the relativistic pusher of Boris (C108, RoundedPush.lean, RoundedPushIeee.lean), the updates of the fields (C102, FieldRounded.lean, FieldRoundedIeee.lean, FieldRoundedCurrents.lean) and the six digits of the output. Fixed-width integers,
  except where the code converts to `unsigned int` (Diag, Output) or reads an `int` from text (Config).
* NaN and infinities, apart from results `none` of divisions by zero where a definition says so.
* Wall clock time, and messages on the terminal other than the progress table (C106) and the verdict of the functional test (C107).
* The C++ memory model beyond this: the loops over the grid and the loops of the push are interleavings of single loads and
  stores of their iterations with barriers in between (`ParMem.lean`); the other parallel loops are their iterations in an
  arbitrary order, each executed as a whole. Caches, compiler reordering and torn accesses are not modelled.
* Failure of `new`; dynamic memory is modelled only for C104.
* Symbolic links, permissions (except a failing `mkdir`) and changes of the file system by other programs.
* `PoissonNeumann` after its first transform, which faults (see the table).

### 5.3 Where the code disagrees with a property

Each of these is a theorem with suffix `_violated`, with a concrete or general witness.

* `C06_corner_violated`: **C06 is violated at corners**: a unit charge that moves diagonally exactly through a node line leaves no current at all, although its charge moved to other nodes.
* `C07_radial_crossing_violated`: **C07 is violated by radial moves to the next cell**: a unit charge that moves radially outwards from the second to the third cell.
* `C07_near_axis_violated`: **C07 is violated in the half cell next to the axis**: a unit charge at `r = dr/4` that moves axially inside one cell.
* `C17_get_field_violated`: **C17 is violated** for the functions themselves: all fields are 1 everywhere, yet a particle at radius 2 in a grid of 6 x 6 nodes with unit steps sees 23/32 and 2/3.
* `C17_uniform_field_violated`: **C17 is violated** for all six components: in the middle of a 6 x 6 grid of unit cells (radius 2, height 2, well inside the region) a uniform field 1 is interpolated as 23/32 (half-integer radii) or 2/3 (integer radii).
* `C18_vay_violated`: **C18 is violated by the Vay pusher** for every velocity that is neither perpendicular nor parallel to the magnetic field: the term `us2` of the code lacks a division by `c²`.
* `C19_adaptive_violated`: **C19 is violated by the default (adaptive) pusher** when the uninitialised flag happens to be `false`: a particle at rest in a strong field is pushed beyond the speed of light.
* `C22_azimuthal_violated`: **C22 is violated** when the particle has azimuthal velocity: the return to the r-z plane after the reflection moves it out of the region again.
* `C23_components_violated`: **C23 is violated**: the rotated velocity components are not the cylindrical components.
* `C26_left_boundary_violated`: Outside that use: for equal densities a nonzero left boundary shifts the whole plasma instead of shortening it, so some draw lands outside the chamber.
* `C28_near_axis_violated`: fails for every bunch with a macroparticle drawn within one cell of the axis: the bunch then carries strictly more charge than prescribed.
* `C29_leftover_violated`: fails whenever the number of steps of the injection does not divide the number of macroparticles of a bunch beginning at a step: the last macroparticle is never injected.
* `C29_off_step_violated`: fails for a bunch whose beginning falls between two steps late enough: its first macroparticle is never injected. `x` is the time from the beginning to the first step in the window, in time steps.
* `C33_incomplete_violated`: is violated while a file is not full: reading any frame of the incomplete last file, which has been written, raises.
* `C33_rerun_violated`: is violated by a second run into the same result directory: the files are appended to, so as long as the first run filled file 0, the frames read from it are those of the first run, whatever the second run computed.
* `C34_same_file_violated`: is violated for every non-empty column, row or dot range inside one file: the read raises.
* `C34_last_frame_garbage_violated`: is violated for a frame range of at least one file's worth of frames that ends inside a file: the read succeeds, but the last frame of the result is whatever was in memory.
* `C34_crossing_violated`: is violated for a frame range shorter than a file that crosses a file boundary: either the read raises, or (when `til` is the first frame of a file) every frame of the result is garbage.
* `C34_last_frame_unreachable_violated`: is violated for every frame range that reaches the last frame (`til` is exclusive): it raises.
* `C34_dot_origin_violated`: is violated for dots on the axis or on the left wall: no number is read and the read raises.
* `C35_mpframe_violated`: is violated by macroparticle reads: after one component has been read, every other component of the same dump returns the data of the first.
* `C35_dot_violated`: is violated by dot ranges: the column of the dot is not part of the key.
* `C35_col_second_read_violated`: is violated by column ranges: reading a non-empty range a second time raises.
* `C35_stale_violated`: is violated by a cache directory left by an earlier analysis of other results: the old data are returned for the new results (nothing in the key or the lookup refers to the data file).
* `C36_axial_step_violated`: is violated in the axial direction: for every bound there is an accepted grid whose axial step exceeds the Debye length by more than that factor.
* `C36_courant_violated`: is violated with respect to the Courant condition: an accepted configuration with `c²Δt²(1/Δr² + 1/Δz²) = 2`.
* `C36_uninitialised_violated`: is violated because a counter is not initialised: the same configuration is accepted or rejected depending on what was in memory.
* `C36_negative_violated`: is violated for negative input: with a negative electron density both derived lengths are NaN, every comparison with them is false, and any grid and system size is accepted with any time step up to the light crossing time of a cell.
* `C36_warning_violated`: The warning about too few macroparticles does not know the grid: however many cells per macroparticle there are, a system with a radius of ten centimetres gives none.
* `C36_accepted_step_unstable_violated`: is violated with respect to stability: on the accepted configuration `coarseGeom`, `coarseDt` the azimuthal electric field of a vacuum without sources at least doubles in every step.
* `C37_memory_violated`: violated, memory: with any grid, constructing the density diagnostic (done at every start) writes beyond its pointer array, and so does every reset of an array with the allocated number of columns.
* `C37_ions_violated`: violated for species other than electrons: particles whose mass is `m` times the electron mass are reported `m` times too dense.
* `C37_dead_violated`: violated for absorbed particles: the flag makes no difference.
* `C37_wall_violated`: violated at the wall: a single particle at `z = 0` makes the diagnostic write outside of the array (the cell number is minus one converted to unsigned).
* `C38_memory_violated`: violated, memory: constructing the temperature diagnostic (done at every start) writes beyond two pointer arrays.
* `C38_wall_violated`: violated on the axis and on the lower wall: one particle there makes the counting diagnostic write outside of its arrays.
* `C39_last_column_violated`: violated in the last column: between its corners it keeps what the destination held, so that the constant `1` becomes `0` there.
* `C39_memory_violated`: violated in use: on the arrays of the temperature diagnostic, which have one column less than the sizes passed, the smoothing accesses memory out of bounds.
* `C40_singular_comment_violated`: C40: the comment in the code ("division by zero would imply a singular matrix") is wrong. The system `x1 = d0, x0 = d1` has exactly one solution for every right-hand side, but the solver divides by zero.
* `C41_real_roundtrip_violated`: A unit value at position 1 of four does not survive the round trip.
* `C41_cosine_violated`: The cosine transform is not usable: for every row of three values or more, every execution writes outside the buffer (the index of line 65 for `k = 0` equals the buffer size).
* `C42_walls_violated`: The potential is not zero on the axial walls: on every admissible grid there is a charge density for which every run ends with a positive potential at every node of the axis, the two wall nodes `k = 0` and `k = nz - 1` included.
* `C42_neumann_violated`: The solver with the other boundary condition is not usable on any grid of three axial nodes or more: its first transform writes outside its buffer.
* `C43_boundary_violated`: is violated at exactly one minute, one hour and one day: the seconds are printed undecomposed.
* `C43_buffer_violated`: is violated for every duration: the text with its terminating zero does not fit into the buffer.
* `C45_trailing_slash_violated`: is violated in its converse form by a path with a trailing slash whose parent is missing: failure is reported whether or not the directory was created.
* `C46_overshoot_violated`: is violated at the walls: in the last column of a right layer, and in the last row of an outer layer, the conductivity exceeds the second configured value.
* `C46_thin_layer_violated`: is violated by an outer layer thinner than one cell: the conductivity of the last row is infinite or not a number.
* `C46_corner_hole_violated`: is violated at the left wall when there is an outer and a right layer but no left layer: the outer layer is missing in column 0, for every row.
* `C48_violated`: The array written by the first beam density probe contains twice the charge of the live bunch particles.
* `C48_legacy_violated`: fails in legacy builds as well: there the written beam density is zero.
* `C50_adaptive_violated`: **C50 is violated by the adaptive pusher**: what the stack held decides the result.
* `C52_free_flight_violated`: **C52 is violated** with azimuthal velocity: a free particle at `r = 1` with velocity 1 in the azimuthal direction is at distance `sqrt 2` after unit time; the code gives `sqrt (3/2)`.
* `C53_cleanup_violated`: fails: with at least two bunches in memory, a bunch that is old enough and whose particles are all dead makes the step fail (iterator used after it was invalidated), whatever the uninitialised loop variable holds.
* `C53_live_bunch_removed_violated`: fails also for bunches that are still alive: the uninitialised loop variable may skip the scan, and then a bunch with live particles is removed.
* `C54_speed_violated`: fails: the relativistic factor is computed for each component on its own, so a hot electron can be given a speed above the light speed.
* `C57_vay_violated`: **C57 is violated by the Vay pusher**: the magnetic field is multiplied by `q dt / (2 m)` three times. A particle with unit charge, mass and time step at 3/5 of the speed of light across a magnetic field is turned by the wrong angle.
* `C58_adaptive_violated`: **C58 is violated by the adaptive mode**: the flag that selects the formulas is not initialised. For the same particle and fields the result is `1e9 m/s` (three times the speed of light) or a velocity below the speed of light.
* `C59_run_length_violated`: **C59 fails: run length of the functional test.** With the times of test/functional/parameters.xml.tmpl.in (end 2.2e-11, step 1e-12) the exact loop does 22 steps, the program 23.
* `C59_probe_twice_violated`: **C59 fails: a probe fires twice.** With the step 1e-13 of parameters.xml.in the steps 5 and 6 have the same index, so all probes of that file with schedule 5 write two records in a row.
* `C59_probe_missed_violated`: **C59 fails: an index is skipped.** With a step of 1e-12 no step at all has index 7: a probe with schedule 7 misses its second record.
* `C59_stall_violated`: **C59 fails: the loop can stall.** When the step is below half a unit in the last place of the time, the time never advances and the run never ends, while the exact loop needs one step.
* `C60_table_end_violated`: **C60 fails at the end of the table:** there the element after the last one is read.
* `C60_monotone_top_violated`: **C60 fails: the energy is not a monotone function of the draw** at the top: the largest draws give just the temperature, a smaller one more than 20 temperatures.
* `C60_monotone_bottom_violated`: **C60 fails: the same at the bottom:** just below the first table entry a smaller draw gives a larger energy (the code has `3√π/4 · U^(2/3)` instead of `(3√π/4 · U)^(2/3)`).
* `C60_negative_energy_violated`: **C60 fails for high temperatures:** from 5000 (eV) on, a first draw of zero gives energy -1 at once, whatever the second draw.
* `C60_scaling_violated`: **C60 fails: not the same distribution for all classical temperatures.** Temperatures are in eV, so all below some thousand are classical and energies must scale with the temperature. But the code switches to the formula for temperatures in units of the rest energy at 0.1: below, no energy exceeds 20.7 temperatures; at 1 eV, energies above 25 temperatures are drawn.
* `C61_schedule_violated`: fails for two probes that differ in the schedule only: they write to the same files, and the record of the first step is there twice, so the reader takes each later record for another time.
* `C62_component_violated`: fails for a macroparticle probe of a species with a name of ten or more characters: constructing it overflows a buffer, wherever the results go.
* `C62_late_violated`: fails for long result paths: if the path of the directory has 94 to 99 characters, the probe is constructed, but its first record overflows the buffer of the file name.
* `C63_end_violated`: fails: the cell `end` is part of the window, unlike for the frames of arrays. With the window `0:0 – 1:1` a particle in the middle of cell `(1, 1)` is written.
* `C63_dead_violated`: fails: dead particles are written like live ones.
* `C63_negative_violated`: fails for a negative start: it is compared as an unsigned number, and no particle at all is written, although every cell number is larger.
* `C64_missing_violated`: fails for a probe that asks for something that does not exist, such as a misspelled component or species: the run goes through without any message, and nothing is ever written.
* `C64_name_violated`: fails for a macroparticle probe of a species called like an array, `T` or `density`: nothing is written although the species exists.
* `C65_truncated_violated`: fails when the window holds more particles than cells times frames per file: the others are left out without any message.
* `C65_phi_violated`: fails for the position angle, number 1: no run writes it, and the read raises.
* `C66_dot_violated`: fails for dots on the axis or on the left wall: whatever has been written, the read raises.
* `C66_row_violated`: fails for `get_row`: it raises for all arguments, whatever has been written.
* `C67_silent_violated`: fails for other texts: they are not reported. A text that does not begin like a number is read as 0, and a whole number written with a point or an exponent loses what follows its first digits.
* `C70_empty_violated`: An empty setting, `<debug/>`, is not reported but read through a null pointer.
* `C70_root_violated`: Another outermost element is not reported either.
* `C70_beam_name_violated`: A beam without a name is accepted, and the name is copied from a null pointer at the first step.
* `C70_long_beam_name_violated`: So is a beam whose name does not fit the buffer, which is then overrun.
* `C70_path_violated`: An empty path of the results is accepted and then printed from a null pointer.
* `C70_truth_violated`: `<debug>1</debug>` and `<debug>yes</debug>` are accepted and mean no.
* `C71_macros_violated`: In debug mode the tools take the number of macroparticles of the normal mode: 1000000 where the simulator uses 10000, with the shipped file.
* `C71_mode_violated`: `<debug>1</debug>` is debug mode for the tools and normal mode for the simulator.
* `C71_bunches_violated`: A number of bunches 1e3 is 1000 for the tools and 1 for the simulator; a grid size 1e3 is refused by the tools and is 1 for the simulator.
* `C72_directory_violated`: With the shipped file kept in the directory `a`, the tools look in `a/pdp3_result`, and the simulator writes in `pdp3_result`.
* `C72_absolute_violated`: With an absolute name of the data directory the tools look in that directory, and the simulator writes in the directory of that name inside of the result path.
* `C73_start_violated`: In a run that starts at step ten, the first record is made at a time for which the tools look up the record ten.
* `C73_row_violated`: In the outer half of the grid the tools take the next row and the next column.
* `C73_last_row_violated`: The row of the outermost radius is outside of the array.
* `C76_azimuthal_violated`: A macroparticle that circles the axis at 4/5 of the speed of light next to the outer wall is brought into the last half cell, and the second cycle reads an element of `E_r` that was never set.
* `C77_column_violated`: A column probe of `E_r` over all rows, as in the shipped configuration, writes out an element that nothing ever sets, on every grid and at every time.
* `C77_interpolation_violated`: The interpolation of the electric field in the last half cell before the outer wall uses an element of `E_r` that nothing ever sets.
* `C78_shipped_violated`: With the configuration that comes with the program the clean-up of bunches can go wrong from iteration 101001 of 500000 on: the scan for live macroparticles begins at an index that was never set, so the first bunch can count as dead, and the removal uses an iterator that it has just made invalid.
* `C80_adaptive_violated`: The adaptive Boris pusher takes a slow macroparticle without and back with the relativistic correction, so it does not come back to its velocity.
* `C80_vay_violated`: In a pure magnetic field the Vay pusher makes every macroparticle that moves along and across the field faster, both in a step forward and in a step back.
* `C82_violated`: The bicubic weights are computed in integers with both offsets cut off to zero, so nothing is smoothed; the two outer rows and columns on each side are set to zero.
* `C82_memory_violated`: On the arrays of the temperature, which have one column less than the sizes passed, the smoothing cannot come to its end without touching memory outside.
* `C83_stack_violated`: Each frame is copied to an array on the stack, so on grids whose frame does not fit there the first dump faults.
* `C83_place_violated`: If the result path does not end with a slash (as the shipped `.`), the HDF5 file is beside the directory and not in it.
* `C83_first_frame_violated`: A range of frames from 0 to 0 gives all frames.
* `C83_default_violated`: A series of points up to the end of the run ends with the frame that has the number of the last row of the grid, or fails if there are less frames.
* `C83_end_violated`: The number one past the end passes the checks of the HDF5 reader.
* `C84_rerun_violated`: A second run appends to the text files of the first.
* `C84_path_violated`: With a result path of 96 or more bytes the first dump overflows the buffer of the name.
* `C84_place_violated`: The text files are beside the result directory if its name does not end with a slash.
* `C85_debye_violated`: The calculator's Debye length is always less than 3/10 of the real one (4π in SI units).
* `C85_steps_violated`: The calculator counts steps from the start time, the simulator from the current time of the file.
* `C85_name_violated`: Electrons called `electron` are found by the simulator only, `ELECTRONS` by the calculator only.
* `C85_message_violated`: Without a section of electrons the calculator dies of an exception; its message about that appears only if there is one.
* `C86_alias_violated`: With the cache on the returned array is the cached one; a caller that writes into it changes what everybody gets.
* `C86_rerun_violated`: With the cache on the frames of an earlier run in the same directory are given for the later one.
* `C86_growing_violated`: Files are counted once; frames that a run writes later are refused.
* `C87_default_violated`: A reader of HDF5 files with the cache on and the default shape [0, 0] raises an exception at the second request.
* `C87_transposed_violated`: With the shape the wrong way round the second request gives a table of another shape, without a complaint.
* `C88_adaptive_violated`: With the adaptive pusher the flag for relativistic motion is read without having been set; the result of the push, and so of a run for tests, depends on what the stack held.
* `C89_numbers_violated`: Two species of equal density and opposite charge but different numbers of macroparticles (1 and 2) leave a charge on the axis at the start.
* `C89_injection_violated`, `C89_shipped_injection_violated`: The first slice of the beam breaks Gauss's law in the second column of nodes, as its charge appears inside the chamber without a current; this happens with the shipped `parameters.xml` in the first iteration.
* `C90_coulomb_violated`: A plasma with a net charge at the start feels no field of its own: the program never solves for the field of its initial charges, so all stays at rest for ever.
* `C92_temperature_violated`: `velocity_distribution` gives the temperature in electronvolts to a sampler that works in units of the rest energy, and takes its result for electronvolts. A plasma at 10 to 3000 eV gets the energies of an ultrarelativistic gas: energies above three temperatures have a probability above 0.37, Maxwell's distribution has less than 0.14.
* `C93_isotropy_violated`: The three draws of the direction fill a cube, so the plasma has faster particles along the diagonals than along the axes.
* `C93_hot_violated`, `C93_cold_violated`, `C93_cool_violated`, `C93_frozen_violated`: The units of `C92_temperature_violated` and the factor 0.74 partly cancel, but the mean kinetic energy is not 1.5 temperatures: it is above 1.57 at 20 to 300 eV, below 1.45 at 0.1 to 1 eV (1 eV is the temperature of the electrons in the shipped settings) and below 0.96 under 0.1 eV.
* `C95_vay_violated`: The pusher of Vay multiplies the magnetic field by charge over mass three times instead of once, so a change of scale of charges, masses and fields changes the motion.
* `C97_density_violated`: The plasma is denser than configured by R/(R-dr) * Z/(Z-dz), for every number of macroparticles that is large enough: the number of real particles is that of the whole chamber, but macroparticles are placed only half a cell off the walls and the axis.
* `C98_tail_violated`, `C98_head_violated`: With text files the movie loses the frames of the data set in which the range ends and shows frames before the beginning of the range.
* `C98_step_violated`: With text files the frame step is applied to frames and again to data sets: with step two, half of the data sets are missing.
* `C98_interval_violated`: The interval between frames is that of the first probe of the component, even if it is a dot; then all times shown are wrong.
* `C99_converter_violated`: The converter raises for every configuration.
* `C100_end_violated`: The axes are stretched by a column: the length of the chamber is written one column after the last.
* `C100_digits_violated`: Labels have three digits; in a chamber of length 1.004 with the shipped number of columns this is an error of nine cells.
* `C100_thin_violated`: In a chamber at least 160 times longer than wide the radial axis has only the label zero.
* `C101_wall_violated`: In a chamber of 0.1 m with ten nodes a macroparticle at rest at the outer wall is read from row `n - 1` of arrays with `n - 1` rows in IEEE arithmetic; exact numbers give the row before.
* `C104_fields_violated`: An electric field leaves three rows when it is deleted, a magnetic field four.
* `C104_current_violated`: Deleting a `Current` is undefined behaviour: arrays made with `new[]` are given back with `delete`.
* `C104_solver_violated`: Each solution of Poisson's equation leaves two buffers for each row of the grid.
* `C104_growth_violated`: Each cycle leaves the 100 bytes of a name, each firing of a probe one block and one for each file, so no amount of memory is enough for runs of every length.
* `C105_time_violated`: The tools write the time 0 over the first frame, but it shows the state after the first iteration; every frame is one time step late.
* `C106_columns_violated`: A name of 25 characters, such as `frame/density/hydrogenion`, runs together with the next column.
* `C106_long_run_violated`: From iteration 10000000 on the numbers of iteration and frame run together.
* `C106_saved_violated`: For a probe of a species that does not exist the table says in each iteration that a frame was saved; nothing is written.
* `C107_exit_violated`: The functional test ends with status 0 after `Test FAILED`.
* `C107_small_violated`: A component whose numbers in the reference are at most 1, as the density of the beam and the temperature of the ions of the smoke test, passes with zeros.
* `C107_nan_violated`: Numbers in other places than in the reference pass when NaNs stand between them.
* `C108_fast_violated`: A macroparticle that gets the momentum `2^30 c` has the computed velocity `c`, and the factor of the next cycle is `1e100`.
* `C109_frequency_violated`: The spectrum notebook shows every wave at a frequency that is too high, by up to `3 / (N - 3)` for `N` samples.
* `C109_mean_violated`: It shows the mean of a signal with twice its size.
* `C109_H_violated`: It shows `H_phi` a hundred times too large.
* `C109_range_violated`: If the components have different schedules, the second is shown for other times than asked for.
* `C109_hidden_violated`: A column of another component that comes first in the configuration hides the asked one.
* `C110_slowest_violated`: The macroparticles with the lowest speed are in no segment of the velocity distribution.
* `C110_directed_violated`: The directed velocity of a macroparticle that is alone in the window is not removed: the subtrahend is that of the cell before.
* `C112_threshold_violated`: A particle at rest whose kick in one step is below 1e-15 m/s never starts to move, however long the run.
* `C112_adaptive_violated`: The adaptive Boris pusher with its uninitialised flag false follows the classical equation of motion below 5e7 m/s, however small the time step.
* `C112_vay_violated`: The Vay pusher multiplies the magnetic field with q dt/2m more than once, so particles go straight on as the time step goes to zero.
* `C113_azimuth_violated`: A free macroparticle that moves around the axis does not go straight on, however small the time step: the centrifugal force has the wrong sign.
* `C113_start_violated`: Places and velocities start at the same time, but the cycle advances them as if they were staggered by half a step, so the place has an error of first order.
* `C114_time_violated`: The notebooks of time draw the last frame one interval later than it was dumped.
* `C114_corner_violated`: The field notebook shows another point if the window does not begin at the corner of the grid.
* `C114_piece_violated`: If the range of times is no whole number of files, frames after it are squeezed into the curve.
* `C114_line_violated`: With a column or a row of one component of the field through the point, the field notebook raises.
* `C114_hidden_violated`: A column or a row of another component through the point leaves the curves empty.
* `C114_two_windows_violated`: Two windows of one component give a curve with one point too many.
* `C114_mixed_violated`: A probe of the point for one component, and windows for both, make the field notebook raise.
* `C116_corner_violated`: Maps cut from a bigger window that does not begin at the corner of the grid show another window.
* `C116_hidden_violated`: If the first data set was saved in exactly the window and another one in a bigger window only, the map raises.
* `C116_again_violated`: The map of four data sets raises if temperature or density was saved in a bigger window only.
* `C116_hdf5_violated`: Maps and profiles of HDF5 results always raise, since that reader takes no window.
* `C116_metres_violated`: The axis of the radial profile of the density is labelled in metres and counts rows.
* `C116_place_violated`: In a window that does not begin at the first column, a radial profile is that of a place further along the axis.
* `C116_end_violated`: The radial profile at the end of the chamber raises.
* `C116_second_violated`: The temperature of a second simulation with another step is that of another time.
* `C116_axis_violated`: The profile along the axis is drawn over the numbers of the rows.
* `C116_deleted_violated`: With limits, the profile along the axis moves values to the places of deleted ones.
* `C117_layers_violated`: Absorbing layers at both ends, mirror images of each other, damp the axial field differently: E_z takes the conductivity of the column half a cell before it.
* `C117_bunch_violated`: A macroparticle of a bunch that reaches the near wall is reflected, its mirror image at the far wall is removed.
* `C119_corner_violated`: In a window that does not begin at the axis, the map of a row over time is that of another row.
* `C119_piece_violated`: If the range of times is not a whole number of files, the map of a row over time has more rows than frames in the range.
* `C119_column_violated`: The map of a column over time, taken from windows, is a map over both coordinates of one frame, or the notebook raises.
* `C119_schedule_violated`: The magnetic field along a line is shown for other times if another component was saved there with another schedule.
* `C119_scale_violated`: Both scales of the maps of the electric field end with 1e-9, and those of the magnetic field count cells and frames.
* `C120_time_violated`: The notebook of the mean temperature draws the last frame one interval later than it was dumped.
* `C120_corner_violated`: If a bigger window does not begin at the corner of the grid, the mean is that of another window, or zero whatever the temperature was.
* `C120_piece_violated`: If the range of times is not a whole number of files, the curve of the mean temperature has more points than frames in the range.
* `C120_two_windows_violated`: With two bigger windows, the curve of the mean temperature has at least two points for every frame.
* `C121_shared_violated`: If the point is saved by windows only, the notebook of short-time spectra shows the same amplitudes for both components, whatever the fields were, because both are one list.
* `C121_scale_violated`: The scale beside the second image of the short-time spectra is that of the first one. If the radial field is zero, it is zero at both ends whatever the other image shows.
* `C121_edge_violated`: In the first column of the short-time spectra a constant field is shown smaller than it is.
* `C122_interval_violated`: If the dumps of a simulation are `q` times as far apart as those of the first one, its curve shows at the time `τ` what was dumped at about `q τ`.
* `C122_place_violated`: If the chamber of a simulation is `q` times as wide as that of the first one, its curve shows the temperature at `q` times the asked radius.
* `C122_four_violated`: The notebook for four simulations shows the cell (100, 100), whatever place is asked for.
* `C122_hdf5_violated`: If the first simulation uses HDF5, the notebook has no second reader and draws nothing.
* `C122_hidden_violated`: A column or a row of another quantity through the cell, before the probe of the temperature, leaves all curves empty.
* `C123_last_violated`: The last line of a cell is never changed. The settings of every notebook end with such a line, e. g. `plot_name`.
* `C123_equals_violated`: Of a value with `=` only what is before it is used.
* `C123_spaces_violated`: Of two spaces in a row in a value one is left.
* `C123_marks_violated`: A value with quotation marks `"` makes the file no notebook any more.
* `C123_bare_violated`: A name without `=` sets the variable to its own name.
* `C123_quoted_violated`: A line with the name and `=` behind a quotation mark, like `print("radius = ...")`, is cut there and gets the value.
