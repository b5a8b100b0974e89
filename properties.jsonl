{"id": "C01", "title": "Charge deposition conserves total charge", "statement": "After the charge of a species is deposited on a density grid, the sum over all grid nodes of density times node volume (pi*dz*dr^2/4 on the axis, 2*pi*i*dz*dr^2 at radial index i>=1) has grown by exactly the total charge of the live macroparticles.", "quantifier": "every grid, every particle count, every list of particles inside the grid with any charges, any initial density grid", "why_tests_cant": "The weights are piecewise rational functions of a continuous position with three radial branches; a test samples finitely many positions and particle lists.", "anchors": ["src/particles.cpp: Particles::charge_weighting", "src/chargeDensity.cpp: ChargeDensity::inc_rho", "include/geometry.h: CELL_VOLUME, CYL_RNG_VOL, CYL_VOL, CELL_NUMBER"]}
{"id": "C02", "title": "Charge deposition is local, sign preserving and stays inside the grid", "statement": "Depositing one macroparticle whose position is inside the grid changes only the four nodes of the cell that contains it, changes each of them by an amount with the sign of its charge, and never writes outside the density array.", "quantifier": "every grid, every position with 0 <= r < R and 0 <= z < Z (including positions on cell faces and on the axis), every charge", "why_tests_cant": "Cell-face positions and the rounding-up cell numbering have to be right at every one of uncountably many positions.", "anchors": ["src/particles.cpp: Particles::charge_weighting", "include/geometry.h: CELL_NUMBER"]}
{"id": "C03", "title": "Deposition does not depend on particle order and ignores absorbed particles", "statement": "The density grid obtained from a set of macroparticles does not depend on the order in which they are deposited, depositing species one after another equals depositing their union, and macroparticles that are not alive contribute nothing.", "quantifier": "every list of particles, every permutation of it, every partition into species, every alive mask", "why_tests_cant": "There are n! orders; the claim is about all of them.", "anchors": ["src/particles.cpp: Particles::charge_weighting", "src/particlesList.cpp: ParticlesList::charge_weighting", "src/chargeDensity.cpp: ChargeDensity::inc_rho"]}
{"id": "C04", "title": "Azimuthal current deposition carries exactly charge times azimuthal velocity", "statement": "After azimuthal current is deposited, the sum over nodes of J_phi times node volume has grown by the sum over live macroparticles of charge times azimuthal velocity.", "quantifier": "every grid, every particle list with r>0 inside the grid, any charges and velocities", "why_tests_cant": "Continuous positions, three radial branches, arbitrary lists.", "anchors": ["src/particles.cpp: Particles::azimuthal_current_distribution", "src/current.cpp: Current::inc_j_phi"]}
{"id": "C05", "title": "Current of a move inside one cell satisfies discrete charge continuity", "statement": "For a macroparticle that moves inside one cell by less than the cell size and by at least the smallest length the code resolves (1e-15) in each direction, off the half cell next to the axis, at every grid node the change of deposited charge density plus dt times the discrete cylindrical divergence of the deposited current is zero.", "quantifier": "every grid, every start and end point in a common cell with r >= dr/2, every charge and dt>0, every node of the grid", "why_tests_cant": "It is an algebraic identity between two independent deposition routines containing logarithms; tests can only sample end points and compare up to tolerance.", "anchors": ["src/particles.cpp: Particles::simple_current_distribution, Particles::charge_weighting", "include/particles.h: SOME_SHIT_DENSITY_R, SOME_SHIT_DENSITY_Z"]}
{"id": "C06", "title": "Current of a move across cells satisfies discrete charge continuity", "statement": "For a macroparticle that moves to a neighbouring or diagonal cell during a step, the total deposited current still satisfies discrete charge continuity at every node.", "quantifier": "every grid, every pair of points at most one cell apart, every charge and dt", "why_tests_cant": "Case analysis over crossing directions times a continuum of crossing points.", "anchors": ["src/particles.cpp: Particles::current_distribution"]}
{"id": "C07", "title": "Current of purely axial and purely radial moves satisfies discrete charge continuity", "statement": "For a macroparticle that moves exactly along z or exactly along r by at most one cell, the current deposited by the strict-motion routine satisfies discrete charge continuity at every node.", "quantifier": "every grid, every pair of points sharing r or sharing z, at most one cell apart, every charge and dt", "why_tests_cant": "The exact-equality branches are measure zero, so random tests never enter them.", "anchors": ["src/particles.cpp: Particles::strict_motion_weighting"]}
{"id": "C08", "title": "Magnetic field stays divergence free forever", "statement": "The discrete cylindrical divergence of the magnetic field never changes: after any number of magnetic updates, interleaved with arbitrary changes of the electric field that respect the walls, it equals its initial value in every cell (zero if it started at zero).", "quantifier": "every grid size, every initial field, every number of steps, every sequence of electric fields that vanish tangentially on the far wall", "why_tests_cant": "It is an invariant over unboundedly many steps and all fields; floating tests only see drift up to a tolerance.", "anchors": ["src/hField.cpp: HField::calc_field, HField::set_homogeneous_h"]}
{"id": "C09", "title": "Conducting wall conditions hold forever", "statement": "After initialisation and after every field update, tangential electric field is zero on all conducting walls: E_phi on r=0, r=R, z=0 and z=Z, E_r on z=0 and z=Z, E_z on r=R.", "quantifier": "every grid, every current and magnetic field history, every number of steps", "why_tests_cant": "Invariant over all histories.", "anchors": ["src/eField.cpp: EField::boundary_conditions, EField::calc_field, EField::set_homogeneous_efield"]}
{"id": "C10", "title": "Gauss's law is preserved by the electric update", "statement": "In a lossless uniform medium, if the current deposited in each step satisfies discrete continuity with the charge density, then the discrete divergence of eps*E minus charge density is the same at every interior node after any number of steps as it was initially.", "quantifier": "every grid, every number of steps, every magnetic field and every current/charge history obeying continuity", "why_tests_cant": "Invariant over histories; also an exact cancellation of curl terms including on the axis.", "anchors": ["src/eField.cpp: EField::calc_field", "src/hField.cpp: HField::calc_field"]}
{"id": "C11", "title": "Field energy balance", "statement": "Without currents and with zero conductivity the staggered-time discrete field energy is exactly conserved step after step; with non-negative conductivity it never increases.", "quantifier": "every grid, every initial field meeting the wall conditions, every dt, every number of steps", "why_tests_cant": "Exact adjointness of two finite difference operators on grids of any size.", "anchors": ["src/eField.cpp: EField::calc_field", "src/hField.cpp: HField::calc_field"]}
{"id": "C12", "title": "Parallel field updates are schedule independent", "statement": "The fields after an electric or magnetic update do not depend on how the loop iterations are distributed over threads or interleaved.", "quantifier": "every grid, every field, every ordering of the loop iterations", "why_tests_cant": "The number of schedules is factorial in the grid size.", "anchors": ["src/eField.cpp: EField::calc_field", "src/hField.cpp: HField::calc_field", "src/current.cpp: Current::reset_j"]}
{"id": "C13", "title": "Field updates only touch allocated, initialised memory", "statement": "Starting from the state the constructors and initialisers leave, no electric or magnetic update reads an array element that was never written or outside its array, for any number of steps.", "quantifier": "every grid size >= 2x2, every number of steps", "why_tests_cant": "Needs an argument for every index of every grid size; memory tools only see the sizes run.", "anchors": ["src/field.cpp: Field::Field", "src/eField.cpp: EField::EField, EField::boundary_conditions, EField::set_homogeneous_efield, EField::calc_field", "src/hField.cpp: HField::HField, HField::set_homogeneous_h, HField::calc_field"]}
{"id": "C14", "title": "Particles see the magnetic field at integer times", "statement": "The magnetic field interpolated to particles in a step is the average of the magnetic fields before and after that step's half-integer update, at every staggered node.", "quantifier": "every grid, every electric and magnetic field, every index of the time-centred arrays", "why_tests_cant": "Quantifies over all fields and indices.", "anchors": ["src/hField.cpp: HField::calc_field, HField::get_field"]}
{"id": "C15", "title": "Field solver obeys superposition", "statement": "One full field step is linear: stepping a linear combination of two (field, current) states gives the same linear combination of the stepped states.", "quantifier": "all pairs of states, all scalars, all grids", "why_tests_cant": "Universal over pairs of fields.", "anchors": ["src/eField.cpp: EField::calc_field", "src/hField.cpp: HField::calc_field"]}
{"id": "C16", "title": "Field interpolation reads only valid field values inside the plasma region", "statement": "Interpolating electric or magnetic field to a particle that lies at least half a cell away from every wall (and up to half a cell from the far walls) reads only in-range, initialised elements.", "quantifier": "every grid with at least three nodes per direction, every position with dr/2 <= r <= R-dr/2, dz/2 <= z <= Z-dz/2", "why_tests_cant": "Index arithmetic with ceil at every real position.", "anchors": ["src/eField.cpp: EField::get_field", "src/hField.cpp: HField::get_field", "src/hField.cpp: HField::HField"]}
{"id": "C17", "title": "Field interpolation reproduces a uniform field", "statement": "If a field component has the same value at all nodes, the interpolated value at every particle position is that value.", "quantifier": "every grid, every admissible position, every uniform value", "why_tests_cant": "Universal over positions and grids.", "anchors": ["src/eField.cpp: EField::get_field", "src/hField.cpp: HField::get_field"]}
{"id": "C18", "title": "Magnetic field does no work on a particle", "statement": "A velocity push in zero electric field leaves the particle's speed unchanged, for any magnetic field and any time step (velocity components below the code's 1e-15 m/s rounding threshold count as zero).", "quantifier": "every velocity below light speed, every magnetic field, charge, mass and dt", "why_tests_cant": "Exact identity of a nonlinear map over all inputs.", "anchors": ["src/particles.cpp: Particles::boris_pusher_single"]}
{"id": "C19", "title": "A relativistic push never makes a particle superluminal", "statement": "After a relativistic velocity push the particle's speed is strictly below the speed of light, whatever the fields.", "quantifier": "every initial velocity below c, every electric and magnetic field, charge, mass, dt", "why_tests_cant": "Unbounded field strengths.", "anchors": ["src/particles.cpp: Particles::boris_pusher_single, Particles::vay_pusher_single", "src/lib.cpp: lib::get_gamma_inv"]}
{"id": "C20", "title": "Free streaming", "statement": "With zero electric and magnetic field the velocity push leaves every velocity (with components above the zeroing threshold) unchanged, in every pusher mode.", "quantifier": "every velocity below c, every charge, mass, dt", "why_tests_cant": "Universal over velocities.", "anchors": ["src/particles.cpp: Particles::boris_pusher_single, Particles::vay_pusher_single", "src/lib.cpp: lib::get_gamma, lib::get_gamma_inv"]}
{"id": "C21", "title": "Lorentz factor functions are correct, inverse to each other and stop the run exactly on superluminal input", "statement": "The Lorentz factor of a speed below c is at least 1, equals 1/sqrt(1-v^2/c^2), the factor recomputed from the momentum is its inverse, and the run is terminated exactly when the speed exceeds c.", "quantifier": "every squared speed and every squared momentum", "why_tests_cant": "Universal over reals including the v=c corner.", "anchors": ["src/lib.cpp: lib::get_gamma, lib::get_gamma_inv"]}
{"id": "C22", "title": "Reflected particles stay inside the chamber", "statement": "If a particle starts at least half a cell from all walls and moves by no more than the width of that region, the reflecting wall puts both coordinates back into the region at least half a cell from the walls, flips the sign of the normal velocity and keeps its magnitude.", "quantifier": "every position in the region, every displacement smaller than the chamber, every velocity, every number of consecutive reflections", "why_tests_cant": "Continuous positions, corner cases, unboundedly many steps.", "anchors": ["src/particles.cpp: Particles::reflection_single, Particles::move_half_reflect, Particles::back_position_to_rz_single"]}
{"id": "C23", "title": "Return to the r-z half plane keeps distance and kinetic energy", "statement": "Rotating a particle back into the r-z half plane gives the true distance to the axis, zero azimuthal coordinate, unchanged z, and preserves the speed; the rotated velocity components are the true cylindrical components.", "quantifier": "every off-axis position, every velocity", "why_tests_cant": "Trigonometric identity over all positions.", "anchors": ["src/particles.cpp: Particles::back_position_to_rz_single, Particles::back_velocity_to_rz_single"]}
{"id": "C24", "title": "Absorbed bunch particles stay absorbed and inert", "statement": "Once a bunch macroparticle leaves through the outer or far wall it is never moved, pushed or deposited again by any later step, and its charge no longer appears in charge or current.", "quantifier": "every bunch, every number of later steps, every field history", "why_tests_cant": "Quantifies over all future histories.", "anchors": ["src/bunch.cpp: Bunch::reflection_single", "src/particles.cpp: Particles::step_v, Particles::charge_weighting, Particles::current_distribution, Particles::azimuthal_current_distribution"]}
{"id": "C25", "title": "Plasma loading carries exactly the prescribed charge", "statement": "After loading a species the sum of macroparticle charges equals the species charge times the number of physical particles implied by the density profile, and every macroparticle has the species charge-to-mass ratio.", "quantifier": "every number of macroparticles >= 1, every sequence of random positions, every density pair, every chamber", "why_tests_cant": "Random positions: must hold for every random sequence.", "anchors": ["src/particles.cpp: Particles::load_cylindrical_spatial_distribution"]}
{"id": "C26", "title": "Plasma loading places particles inside the chamber with the prescribed axial profile", "statement": "Every loaded macroparticle lies at least half a cell from the near walls and strictly less than the far limits, and the axial coordinate is the exact inverse of the cumulative linear density profile (uniform when both densities are equal).", "quantifier": "every random draw in [0,1), every pair of positive densities, every chamber", "why_tests_cant": "Universal over random draws and densities.", "anchors": ["src/particles.cpp: Particles::load_cylindrical_spatial_distribution"]}
{"id": "C27", "title": "Reproducible random numbers are a low-discrepancy sequence in [0,1)", "statement": "The deterministic random number generator terminates, returns a value in [0,1), never repeats a value, and its first p^m values fall one in each interval of length p^-m.", "quantifier": "every base p>=2, every index, every m", "why_tests_cant": "Unbounded indices and bases.", "anchors": ["src/math/rand.cpp: math::random::random_reverse"]}
{"id": "C28", "title": "Bunch loading carries exactly the prescribed charge", "statement": "The macroparticle charges of a newly created bunch sum to density times bunch volume times particle charge.", "quantifier": "every bunch radius, density, macroparticle number and random sequence", "why_tests_cant": "Must hold for every random sequence.", "anchors": ["src/bunch.cpp: Bunch::Bunch"]}
{"id": "C29", "title": "Every bunch macroparticle is injected exactly once", "statement": "During the injection window each macroparticle of a bunch becomes alive exactly once, at the entry plane with the prescribed velocity, and nothing is injected afterwards.", "quantifier": "every macroparticle number, bunch duration and time step, every step index", "why_tests_cant": "Integer division windows for all sizes.", "anchors": ["src/bunch.cpp: Bunch::bunch_inject"]}
{"id": "C30", "title": "Bunch train schedule", "statement": "At most one bunch is created per step, never more than the configured number in total, and the n-th bunch (from 0) is created at the first step that is not before step n and whose time reaches n times (duration plus gap); when the bunch period is at least one time step this is simply the first step whose time reaches it.", "quantifier": "every time step, start time, train configuration, number of steps", "why_tests_cant": "History property over all runs.", "anchors": ["src/loadInitParam.cpp: LoadInitParam::init_beam"]}
{"id": "C31", "title": "The run loop performs the right number of steps", "statement": "The main loop starts at the configured current time, advances by the time step and ends exactly after the least number of steps that reaches the end time; in particular it terminates when the step is positive.", "quantifier": "every start, end and positive step", "why_tests_cant": "Unbounded step counts.", "anchors": ["src/loadInitParam.cpp: LoadInitParam::run"]}
{"id": "C32", "title": "Probes fire on schedule and number their output without gaps", "statement": "A probe writes exactly at the steps whose index is a multiple of its schedule, the n-th written record goes to file number n div frames_per_file, and no record is lost or overwritten.", "quantifier": "every schedule>0, frames_per_file>0, every number of steps", "why_tests_cant": "Invariant over runs of any length.", "anchors": ["src/loadInitParam.cpp: LoadInitParam::dump_data", "src/probePlain.cpp: ProbePlain::write"]}
{"id": "C33", "title": "Frames are read back as written", "statement": "Reading frame n of a frame probe returns exactly the window of the field array that was dumped for the n-th time (up to the six significant digits of the text format).", "quantifier": "every window, every frames_per_file, every sequence of dumped arrays, every n", "why_tests_cant": "All array contents and offsets.", "anchors": ["src/probePlain.cpp: ProbePlain::write_frame", "tools/lib/plain_reader.py: PlainReader.get_frame, PlainReader.get_all_frames_in_ds"]}
{"id": "C34", "title": "Frame ranges are read back as written", "statement": "Reading a range of frames returns exactly the frames from the first to the last requested, in order.", "quantifier": "every pair of frame numbers with from<=to", "why_tests_cant": "All pairs, all file boundaries.", "anchors": ["tools/lib/plain_reader.py: PlainReader.get_frame_range, get_frame_range_col, get_frame_range_row, get_frame_range_dot"]}
{"id": "C35", "title": "Reader cache is transparent", "statement": "A read with the cache enabled returns the same data as the same read without it, whatever was read before.", "quantifier": "every history of reads, every pair of distinct requests", "why_tests_cant": "Key collisions depend on the full request history.", "anchors": ["tools/lib/plain_reader.py", "tools/lib/tinycache.py: TinyCache"]}
{"id": "C36", "title": "Accepted configurations are numerically admissible", "statement": "If the limitations checker accepts a configuration then the time step resolves light crossing of a cell in both directions, is a hundredth of the plasma period, the grid resolves the Debye length in both directions, and the Courant condition holds.", "quantifier": "every geometry, species list and time step", "why_tests_cant": "Universal over configurations.", "anchors": ["src/limitationsChecker.cpp"]}
{"id": "C37", "title": "Number density output counts the macroparticles", "statement": "The volume-weighted sum of the density grid equals the number of physical particles represented by the species and is independent of particle order.", "quantifier": "every particle list, every grid", "why_tests_cant": "Arbitrary lists.", "anchors": ["src/particlesDensity.cpp: ParticlesDensity::calc_density"]}
{"id": "C38", "title": "Temperature output is non-negative", "statement": "In every cell that contains particles the reported temperature is non-negative, and is zero if all particles in the cell share one velocity.", "quantifier": "every list of particles and velocities", "why_tests_cant": "Triangle inequality over arbitrary lists.", "anchors": ["src/temperatureClassic.cpp: TemperatureClassic::calc_t, normalize", "src/temperature.cpp"]}
{"id": "C39", "title": "Bilinear smoothing is an averaging", "statement": "The smoothing applied to diagnostics preserves constants, never exceeds the extremes of the source, and stays in bounds.", "quantifier": "every source array", "why_tests_cant": "All arrays.", "anchors": ["src/lib.cpp: lib::bilinear_interpolation"]}
{"id": "C40", "title": "Tridiagonal solver solves the system", "statement": "Whenever no pivot vanishes the returned vector satisfies every equation of the tridiagonal system, and for diagonally dominant systems no pivot vanishes.", "quantifier": "every size, every coefficient array, every right-hand side", "why_tests_cant": "All sizes.", "anchors": ["src/eField.cpp: EField::tridiagonal_solve"]}
{"id": "C41", "title": "FFT equals the discrete Fourier transform", "statement": "For every power-of-two length the in-place FFT computes the discrete Fourier sum, and transform followed by its inverse is the identity; the sine transform is its own inverse.", "quantifier": "every power of two, every complex input array", "why_tests_cant": "All sizes.", "anchors": ["src/math/fourier.cpp: Fourier::fast_fourier_transform, fast_sine_transform"]}
{"id": "C42", "title": "Dirichlet Poisson solution satisfies the discrete Poisson equation", "statement": "The potential computed by the Poisson solver satisfies the discrete cylindrical Poisson equation at every interior node with zero potential on the walls.", "quantifier": "every admissible grid, every charge density", "why_tests_cant": "All grids and densities.", "anchors": ["src/poissonDirichlet.cpp: PoissonDirichlet::poisson_solve"]}
{"id": "C43", "title": "Reported duration decomposition", "statement": "The elapsed time message decomposes the elapsed seconds into days, hours, minutes and seconds that add up to the total with each part in its range.", "quantifier": "every elapsed time", "why_tests_cant": "All durations.", "anchors": ["src/lib.cpp: lib::get_simulation_duration"]}
{"id": "C44", "title": "Command line dispatch", "statement": "-h anywhere wins and prints usage with exit code 1; else --version anywhere prints the version with exit code 0; else -f PATH selects the configuration; a trailing -f is an error; otherwise parameters.xml is used.", "quantifier": "every argument vector", "why_tests_cant": "All argument lists.", "anchors": ["src/main.cpp: main", "src/lib.cpp: lib::get_cmd_option, lib::cmd_option_exists"]}
{"id": "C45", "title": "Directory creation", "statement": "If recursive directory creation reports success then the directory exists afterwards, nothing existing is removed, and it terminates.", "quantifier": "every path and every file system state", "why_tests_cant": "All file system states.", "anchors": ["src/lib.cpp: lib::make_directory, lib::directory_exists"]}
{"id": "C46", "title": "Absorbing layer conductivity is well formed", "statement": "The conductivity profile is non-negative, is zero outside the configured layers, lies between its two configured values inside them, and is non-decreasing towards the wall.", "quantifier": "every grid, layer widths, 0<=sigma1<=sigma2", "why_tests_cant": "All grids and widths.", "anchors": ["src/geometry.cpp: Geometry::set_pml"]}
{"id": "C47", "title": "Currents are per step", "statement": "The current used in a step's electric update depends only on the particle motion of that step: it is cleared before deposition at every node.", "quantifier": "every history of steps", "why_tests_cant": "History independence.", "anchors": ["src/current.cpp: Current::reset_j", "src/loadInitParam.cpp: LoadInitParam::run"]}
{"id": "C48", "title": "Beam density output equals the deposited beam charge", "statement": "The rho_beam array written by a probe is the charge density of the live bunch particles at that time.", "quantifier": "every probe list, every step", "why_tests_cant": "Depends on the set of probes and step history.", "anchors": ["src/loadInitParam.cpp: LoadInitParam::dump_data, LoadInitParam::run"]}
{"id": "C49", "title": "Particle-field cycle preserves Gauss's law for plasmas of any size", "statement": "Composed over all macroparticles of all species and over any number of steps, deposit-then-update keeps div(eps E) minus deposited charge density constant at every interior node provided each particle move is of a kind for which continuity holds.", "quantifier": "every number of species, particles and steps", "why_tests_cant": "Whole-system invariant.", "anchors": ["src/loadInitParam.cpp: LoadInitParam::run", "src/particles.cpp", "src/eField.cpp: EField::calc_field"]}
{"id": "C50", "title": "Velocity push is schedule independent", "statement": "Advancing all macroparticles in any order or thread interleaving gives the same particle state, since each particle reads only the fields and its own state.", "quantifier": "every particle array, every permutation of the loop", "why_tests_cant": "Factorially many schedules.", "anchors": ["src/particles.cpp: Particles::step_v, Particles::move_half_reflect"]}
{"id": "C51", "title": "Discrete field energy stays bounded (stability)", "statement": "Without currents and with non-negative conductivity, when the time step satisfies the stability limit of the grid, (c dt)^2 (4/3/dr^2 + 1/dz^2) < 1 with c the largest speed of light in the medium, the electric and magnetic fields at every node stay bounded for ever, by a bound given by the initial energy.", "quantifier": "every grid, initial fields, permittivity profile, number of steps", "why_tests_cant": "Unbounded number of steps from arbitrary fields.", "anchors": ["src/eField.cpp: EField::calc_field", "src/hField.cpp: HField::calc_field"]}
{"id": "C52", "title": "Free particles move in straight lines", "statement": "A particle with no force on it that meets no wall moves through one cycle along a straight line at its velocity: its new r is the distance from the axis of the straight-line position and its z advances by v_z*dt.", "quantifier": "every position, velocity and time step", "why_tests_cant": "Universal over positions and velocities.", "anchors": ["src/particles.cpp: Particles::half_step_pos_single, Particles::back_position_to_rz_single, Particles::step_v, Particles::move_half_reflect"]}
{"id": "C53", "title": "Removing finished bunches is safe", "statement": "When a bunch has left the chamber its memory is released without disturbing the other bunches and species, and a bunch with live particles is never removed.", "quantifier": "every beam configuration with at least two bunches, every time, every set of live particles", "why_tests_cant": "Depends on heap and stack contents and on long histories.", "anchors": ["src/loadInitParam.cpp: LoadInitParam::init_beam"]}
{"id": "C54", "title": "Initial thermal velocities are below the light speed", "statement": "Every macroparticle loaded with a temperature starts with a speed strictly below the speed of light.", "quantifier": "every temperature, species mass and random sequence", "why_tests_cant": "Must hold for every random sequence and temperature.", "anchors": ["src/particles.cpp: Particles::velocity_distribution"]}
{"id": "C55", "title": "Every node receives the share of a particle lying in its cell", "statement": "The charge put on a grid node by a macroparticle is its charge times the fraction of its ring (one cell wide and long, centred at the particle, folded at the axis) that lies in the cell of the node; the azimuthal current likewise with charge times azimuthal velocity.", "quantifier": "every grid, every list of particles in the closed chamber, every node", "why_tests_cant": "Real-valued positions; a wrong weight that keeps the total is invisible to tests of the total.", "anchors": ["src/particles.cpp: Particles::charge_weighting, Particles::azimuthal_current_distribution"]}
{"id": "C56", "title": "Interpolated fields come from the nodes around the particle", "statement": "The electric and magnetic field a particle sees depends only on the values at nodes of the staggered grid within one cell of it; at a node it is the value of that node up to the radial weight; fields that are nowhere negative are not interpolated to negative values.", "quantifier": "every grid with at least three nodes per direction, every position in the plasma region, every node, all field values", "why_tests_cant": "Real-valued positions and field values; a wrong neighbour is invisible in uniform fields.", "anchors": ["src/eField.cpp: EField::get_field", "src/hField.cpp: HField::get_field"]}
{"id": "C57", "title": "The velocity push solves the Lorentz force equation", "statement": "The momentum after a push solves m (u' - u) = q dt (E + w x mu0 H) with the magnetic force taken at the mean of old and new velocity; an electric field alone changes the momentum by q E dt.", "quantifier": "every mode, charge, mass, time step, fields, every velocity below the speed of light", "why_tests_cant": "Identity over all real inputs.", "anchors": ["src/particles.cpp: Particles::boris_pusher_single, Particles::vay_pusher_single"]}
{"id": "C58", "title": "The velocity push depends on nothing but the particle and the fields", "statement": "Pushing the same particle in the same fields with the same time step always gives the same velocity.", "quantifier": "every mode, every particle, all fields, any previous contents of the stack", "why_tests_cant": "An uninitialised variable usually holds the same value in a test.", "anchors": ["src/particles.cpp: Particles::boris_pusher_single"]}
{"id": "C59", "title": "Steps are counted right in double precision", "statement": "With current_time and current_time/delta_t rounded to double, a run does the number of steps the configured times call for and every probe fires exactly once at each multiple of its schedule.", "quantifier": "every double time step and end time, every number of steps, every schedule", "why_tests_cant": "Rounding errors depend on the step size and on the whole history of sums.", "anchors": ["src/loadInitParam.cpp: LoadInitParam::run, LoadInitParam::dump_data", "src/parameters.cpp: Parameters::init_time"]}
{"id": "C60", "title": "Sampled thermal energies are defined and follow the temperature", "statement": "Every energy the Maxwell-Juttner sampler stores is a non-negative number read from inside its tables, does not decrease when the draw increases, and for classical temperatures scales with the temperature.", "quantifier": "every temperature, every random draw (every rejection sequence)", "why_tests_cant": "Table ends and branch limits are hit by draws of vanishing probability.", "anchors": ["src/math/maxwellJuttner.cpp: maxwellJuttner"]}
{"id": "C61", "title": "Probes of one run do not interfere", "statement": "Every configured probe's result files hold exactly the records the probe would have written had it been the only one: its windows, at the steps of its schedule, in order.", "quantifier": "every list of probes of every type, every number of steps, every field history, every output directory", "why_tests_cant": "Interference depends on which names collide; tests configure a few probes.", "anchors": ["src/loadInitParam.cpp: LoadInitParam::dump_data", "src/probePlain.cpp: ProbePlain::ProbePlain, ProbePlain::get_data_path, ProbePlain::write, ProbePlain::mpwrite"]}
{"id": "C62", "title": "Output names fit their buffers", "statement": "Constructing a probe and writing its records never overflows the buffers of component, species and path names.", "quantifier": "every output directory, component, species and window of the configuration; every record number", "why_tests_cant": "An overflow needs a long name or a late record and often goes unnoticed.", "anchors": ["src/probePlain.cpp: ProbePlain::ProbePlain, ProbePlain::get_data_path", "src/loadInitParam.cpp: LoadInitParam::LoadInitParam", "include/probe.h: class Probe"]}
{"id": "C63", "title": "Macroparticle probes record the live particles of their window", "statement": "Record m of an mpframe probe holds the velocities and positions, in matching order in its five files, of exactly the live particles of the species that are in the window's cells (end excluded, as for frames) at the m-th scheduled step.", "quantifier": "every particle population, window, schedule and number of steps", "why_tests_cant": "Particles on window edges and outside are rare in tests.", "anchors": ["src/probePlain.cpp: ProbePlain::mpwrite", "src/loadInitParam.cpp: LoadInitParam::dump_data"]}
{"id": "C64", "title": "A probe shows the quantity it names", "statement": "The component (and species) of a probe selects the array or particles of this name, and a probe of something that does not exist is reported.", "quantifier": "every component and species name, every list of species", "why_tests_cant": "There are more names than tests; a missing output is not an error.", "anchors": ["src/loadInitParam.cpp: LoadInitParam::dump_data"]}
{"id": "C65", "title": "Macroparticle records are read back as written", "statement": "get_mpframe called with the window and species of an mpframe probe gives, for every record of a run and each of the six numbers of its documentation, the data of all particles of the record in order.", "quantifier": "every run with any probes, every population, window and record", "why_tests_cant": "The number of particles in a window and the number of records vary without bound.", "anchors": ["tools/lib/plain_reader.py: PlainReader.get_mpframe", "src/probePlain.cpp: ProbePlain::mpwrite"]}
{"id": "C66", "title": "The reader finds what the simulator wrote", "statement": "get_frame, get_col, get_row and get_dot, called with the component and window of a configured probe, look in the directory the simulator wrote to and give the record of the asked number.", "quantifier": "every run with any probes of every type, every window, every record number and number of records per file", "why_tests_cant": "The path texts of the two programs agree or not for all numbers; tests use a few.", "anchors": ["tools/lib/plain_reader.py: PlainReader.__get_path__, PlainReader.get_frame, PlainReader.get_col, PlainReader.get_row, PlainReader.get_dot", "src/probePlain.cpp: ProbePlain::ProbePlain, ProbePlain::write"]}
{"id": "C67", "title": "Numbers of the configuration are read as written", "statement": "A whole number or decimal number written in the configuration file, with sign, fraction and power of ten and with white space before it, is read as the number it denotes; a text that is no number is reported.", "quantifier": "every integer, every decimal numeral with any number of digits, any text", "why_tests_cant": "Tests use the few numbers of the example configuration.", "anchors": ["src/parameters.cpp: Parameters::init_geometry, Parameters::init_time, Parameters::init_particles, Parameters::init_beam", "src/lib.cpp: lib::to_bool"]}
{"id": "C68", "title": "The configuration is read as it is written", "statement": "Reading a configuration file with the documented layout gives exactly the described geometry, absorbing layers, times, species, beam, output settings and probes; in debug mode the debug values of grid, particle numbers and output directory are taken, otherwise the normal ones.", "quantifier": "every configuration: any numbers, any number of species and probes of every type, debug mode or not", "why_tests_cant": "There are dozens of settings, which can be mixed up in ways that show only for some values.", "anchors": ["src/parameters.cpp: Parameters::Parameters, Parameters::init_particles, Parameters::init_probes, Parameters::init_beam, Parameters::init_data_dump_parameters", "parameters.xml.in"]}
{"id": "C69", "title": "Only the settings of the chosen mode matter", "statement": "Two configuration files that agree in the elements read in the chosen mode (per section, in order of their repetition) are read alike: order of sections, unknown elements, plot settings and the values of the other mode have no influence.", "quantifier": "every pair of configuration files, also malformed ones", "why_tests_cant": "It relates any two files.", "anchors": ["src/parameters.cpp: Parameters::Parameters, Parameters::try_first_child, Parameters::try_atribute"]}
{"id": "C70", "title": "Faulty configurations are reported", "statement": "A configuration file with a missing or faulty setting ends the program with a message before the run; the program never starts with a setting missing or runs into undefined behaviour because of the file.", "quantifier": "every configuration file: any tree of elements with any attributes and texts", "why_tests_cant": "There is no end of faulty files.", "anchors": ["src/parameters.cpp: Parameters::Parameters, Parameters::try_first_child, Parameters::try_atribute", "src/loadInitParam.cpp: LoadInitParam::LoadInitParam, LoadInitParam::init_beam"]}
{"id": "C71", "title": "The tools read the configuration as the simulator does", "statement": "The Python tools and the simulator, given the same configuration file with the documented layout, agree on the grid, the sizes, the times, the beam, the species, the probes and the output settings.", "quantifier": "every configuration file of the documented layout: any numbers, any number of species and probes, debug mode or not", "why_tests_cant": "Two separately written readers have to agree for all files.", "anchors": ["tools/lib/parameters.py: Parameters.__init__", "src/parameters.cpp: Parameters::Parameters"]}
{"id": "C72", "title": "The tools look where the simulator writes", "statement": "The directory in which the tools look for results, computed from the configuration file, is the directory in which the simulator writes them.", "quantifier": "every path of the configuration file, every result path and data directory, every current directory", "why_tests_cant": "Paths with any number of components, . and .. and repeated slashes; tests use one layout.", "anchors": ["tools/lib/parameters.py: Parameters.__init__", "tools/lib/plain_reader.py: PlainReader.__init__", "src/loadInitParam.cpp: LoadInitParam::LoadInitParam"]}
{"id": "C73", "title": "The tools translate times and positions to indices and back", "statement": "The frame that the tools look up for a time is the record nearest to this time; the row and column that they look up for a position are those of the grid node at this position; the translations back give the time and position of the frame, row or column.", "quantifier": "every time, position, frame, schedule, grid and start time", "why_tests_cant": "Rounding goes wrong only for some numbers of nodes and some positions.", "anchors": ["tools/lib/parameters.py: Parameters.get_frame_number_by_timestamp, Parameters.get_timestamp_by_frame_number, Parameters.get_row_by_radius, Parameters.get_col_by_longitude, Parameters.get_radius_by_row", "src/geometry.cpp: Geometry::get_dr"]}
{"id": "C74", "title": "The current of a move stays on the grid and near the path", "statement": "The current of a macroparticle that moves by less than a cell in each direction between two positions inside the chamber and off the axis is always computed and finite, and is added only to grid edges that exist and that belong to the cells the path touches or their neighbours.", "quantifier": "every grid, charge, time step and pair of positions, including those on cell boundaries, along the walls and across a corner of cells", "why_tests_cant": "The deposition has some fifteen branches on the order of cell numbers and on crossings; corner cases are real numbers.", "anchors": ["src/particles.cpp: Particles::simple_current_distribution, Particles::current_distribution, Particles::strict_motion_weighting"]}
{"id": "C75", "title": "A run without azimuthal motion stays without", "statement": "If no macroparticle has azimuthal velocity and the azimuthal electric and the radial and axial magnetic fields are zero, this is still so after any number of steps, also with injection of macroparticles without azimuthal velocity.", "quantifier": "every grid, state of the other fields, number of steps, set of macroparticles, pusher and schedule of the loops", "why_tests_cant": "It is an invariant of the whole loop over unbounded runs.", "anchors": ["src/loadInitParam.cpp: LoadInitParam::run", "src/eField.cpp: EField::calc_field", "src/hField.cpp: HField::calc_field", "src/particles.cpp: Particles::step_v, Particles::full_current_distribution"]}
{"id": "C76", "title": "A run never faults", "statement": "A simulation that starts with macroparticles inside the walls and slower than light, with a relativistic pusher and a time step in which light crosses at most a cell, goes on for as many steps as wanted: it never accesses memory outside the arrays, uses a value that was never set, divides by zero or stops with an error.", "quantifier": "every grid, field, set of species and macroparticles, number of steps, injection and schedule of the loops", "why_tests_cant": "A test runs for some steps on some machine; the fault may need a certain position, speed or interleaving.", "anchors": ["src/loadInitParam.cpp: LoadInitParam::run", "src/particles.cpp: Particles::step_v, Particles::reflection, Particles::back_position_to_rz, Particles::full_current_distribution", "src/eField.cpp: EField::get_field", "src/hField.cpp: HField::get_field"]}
{"id": "C77", "title": "What is written out and used was set by the run", "statement": "Every value that a probe writes out and every value of the fields that a macroparticle is pushed with was set by the program: by the set-up, or by the steps of the run; none is what memory happened to hold.", "quantifier": "every grid, probe, number of steps, set of macroparticles, position and schedule of the loops", "why_tests_cant": "Memory that was never set often holds zero in tests.", "anchors": ["src/eField.cpp: EField::EField, EField::calc_field, EField::get_field", "src/hField.cpp: HField::calc_field", "src/probePlain.cpp: ProbePlain::write_frame, ProbePlain::write_col, ProbePlain::write_row, ProbePlain::write_dot", "src/field.cpp: Field::Field"]}
{"id": "C78", "title": "The whole program runs without a fault", "statement": "From the set-up on, the program with its plasma and its train of bunches can do every iteration: creation of bunches, injection, clean-up of bunches that have left, and the cycle of fields and macroparticles end without undefined behaviour and leave a state from which the next iteration can start.", "quantifier": "every grid, plasma, beam, number of bunches, number of iterations, draw of the random numbers and schedule of the loops", "why_tests_cant": "The clean-up needs bunches that have crossed the chamber, after some hundred thousand iterations; which memory an uninitialised loop variable or an invalid iterator touches differs from run to run.", "anchors": ["src/loadInitParam.cpp: LoadInitParam::run, LoadInitParam::init_beam", "src/bunch.cpp: Bunch::Bunch, Bunch::bunch_inject", "parameters.xml.in"]}
{"id": "C79", "title": "The plasma that the program starts with is fit for the run", "statement": "Loading the plasma ends for every species with all macroparticles that the configuration asks for: alive, inside the chamber and off its walls, with mass, slower than light; their charges add up to the charge of the density profile, so a plasma of two opposite species is neutral; no velocity is undefined.", "quantifier": "every grid, list of species, number of macroparticles, density profile, temperature and draw of the random numbers", "why_tests_cant": "An undefined or too large velocity needs a draw at the end of the range; a test sees some draws.", "anchors": ["src/loadInitParam.cpp: LoadInitParam::init_particles", "src/particles.cpp: Particles::load_cylindrical_spatial_distribution, Particles::velocity_distribution", "src/math/maxwellJuttner.cpp: maxwellJuttner", "parameters.xml.in"]}
{"id": "C80", "title": "A push can be undone", "statement": "Pushing a macroparticle forward and then with the opposite time step in the same fields gives back its velocity, for every pusher; equivalently, with velocity and magnetic field reversed the same push takes it back. So the motion has no direction of time and no numerical friction.", "quantifier": "every pusher, time step, charge, mass, field and velocity below that of light", "why_tests_cant": "A test sees some velocities and fields; a drift of the energy of one part in a thousand per step does not show in one push.", "anchors": ["src/particles.cpp: Particles::boris_pusher, Particles::vay_pusher"]}
{"id": "C81", "title": "The push respects the symmetries of the motion of a charge", "statement": "The change of the velocity depends on charge and mass only through their quotient, so macroparticles of different weight move alike; opposite charges in opposite fields move alike; the mirror image of a push is the push of the mirror image, with the magnetic field taken as an axial vector; reversing velocity and magnetic field is the same as reversing the time step.", "quantifier": "every pusher, time step, charge, mass, weight, field and velocity, with or without undefined result", "why_tests_cant": "A wrong sign in one of the products of the cross product shows for one direction of field and velocity only.", "anchors": ["src/particles.cpp: Particles::boris_pusher, Particles::vay_pusher"]}
{"id": "C82", "title": "Smoothing of the temperature is an average and touches no other memory", "statement": "With bicubic post processing every element of the temperature becomes an average of the elements around it, between their smallest and largest; the outcome does not depend on how the threads are scheduled; no element outside of the arrays is touched.", "quantifier": "every grid, temperature and schedule of the threads", "why_tests_cant": "The threads share their variables, so a test sees one of the schedules; reads past the end of an array often give what was there before.", "anchors": ["src/lib.cpp: lib::bicubic_interpolation", "src/temperature.cpp: Temperature::calc_t", "src/temperatureClassic.cpp"]}
{"id": "C83", "title": "Results kept in HDF5 can be read back", "statement": "A run built for HDF5 comes to its end without a fault; then the file in the result directory holds, for every component asked for, frame s as it was in iteration s times the interval, and nothing else; the reader gives every frame, row, column and point of it exactly, for single frames and for ranges of frames, with the end of the range given or left out, and refuses every number outside.", "quantifier": "every grid, choice of components, interval, number of iterations, history of the fields and request", "why_tests_cant": "A test reads some frames of a small run; the faults are at the ends of ranges and on large grids.", "anchors": ["src/ioHDF5.cpp: IOHDF5::out_data, IOHDF5::dump_h5_dataset", "src/loadInitParam.cpp: LoadInitParam::dump_data, LoadInitParam::run", "tools/lib/h5_reader.py: H5Reader"]}
{"id": "C84", "title": "Results kept in the old text files are complete and in order", "statement": "A run built with the old text back end comes to its end without a fault; then the file of block b of every component asked for, in the result directory, holds exactly the frames of that block of this run in order; no other file is touched.", "quantifier": "every grid, result path, number of frames per file, choice of components, interval, number of iterations and history of the fields", "why_tests_cant": "A test looks at some files of one run in an empty directory.", "anchors": ["src/ioText.cpp: IOText::out_data, IOText::get_data_path, IOText::dump_data", "src/loadInitParam.cpp: LoadInitParam::dump_data, LoadInitParam::run"]}
{"id": "C85", "title": "The quick calculator agrees with the simulator", "statement": "For the settings of one file the quick calculator prints what the simulator does with them: how long the beam takes to enter and to pass, duration and distance of the bunches, the number of particles in them, the number of steps of the run, the plasma frequency and the Debye length of the electrons as the simulator finds them; it says that the section of the electrons is missing if, and only if, it is missing.", "quantifier": "every configuration that both programs read", "why_tests_cant": "A test compares the numbers of one configuration; the deviations depend on names and times that it does not vary.", "anchors": ["tools/quick_parameters_calculator.py: main, langmur_freq, debye_length, wake_length, eV2kelvin", "src/loadInitParam.cpp: LoadInitParam::init_beam, LoadInitParam::run", "src/limitationsChecker.cpp: LimitationsChecker::LimitationsChecker"]}
{"id": "C86", "title": "A reader of results gives what is in the files now", "statement": "Whatever was read before, in this process or an earlier one, with the cache or without it, and whatever the caller did with the arrays it got: when a frame is asked for, the reader of the plain files gives the frame that the files hold at that moment, and refuses a frame only if the files do not hold it.", "quantifier": "every history of reads, changes to returned arrays, restarts of the process and writes to the result files by a run that goes on or starts anew", "why_tests_cant": "A test reads a finished run once or twice; the faults need a run in progress, a repeated run or a caller that writes into an array.", "anchors": ["tools/lib/plain_reader.py: PlainReader.get_frame, PlainReader.__get_ds_range__", "tools/lib/tinycache.py: TinyCache.get_cache, TinyCache.update_cache"]}
{"id": "C87", "title": "The cache of the HDF5 reader changes nothing", "statement": "A request for a frame, or for a row, a column or a point over a range of frames, gives with the cache on the same numbers in the same shape, or the same exception, as with the cache off, whatever was asked for before.", "quantifier": "every HDF5 file, every shape that was given to the reader, every history of requests and every request", "why_tests_cant": "A test asks for a few things once; the second request for the same thing takes another path, and two different requests must never share a key.", "anchors": ["tools/lib/h5_reader.py: H5Reader.get_frame, H5Reader.get_frame_range_row, H5Reader.get_frame_range_col, H5Reader.get_frame_range_dot", "tools/lib/tinycache.py: TinyCache"]}
{"id": "C88", "title": "A build for tests gives the same results every time", "statement": "In a build with --enable-testmode all runs with the same settings agree, before every iteration that they reach, in all fields and currents and in all macroparticles of plasma and beam, whatever the threads did and whatever was in memory that the program did not set.", "quantifier": "every valid grid, set of species, beam, boundary layer, pusher, number of iterations and schedule of the parallel loops", "why_tests_cant": "A test compares one run with a stored result; it cannot try all schedules and all contents of memory that was not set.", "anchors": ["src/main.cpp: main", "src/math/maxwellJuttner.cpp: maxwellJuttner", "src/particles.cpp: velocity_distribution, step_v, boris_pusher_single", "src/bunch.cpp: Bunch, bunch_inject", "src/math/rand.cpp: random_reverse"]}
{"id": "C89", "title": "Gauss's law holds from the start on", "statement": "When the species of the plasma have the same number of macroparticles, the same density profile and densities whose charges cancel, the charge density at the start is zero at every node, Gauss's law holds there with the fields that the program starts with, and it goes on to hold off the walls as the run goes on.", "quantifier": "every valid grid, list of species, draw of the velocities, pusher, time step and number of cycles", "why_tests_cant": "The law is an exact identity between sums over all macroparticles and all fields; a test checks a few nodes of a run within some tolerance and cannot tell which settings break it.", "anchors": ["src/loadInitParam.cpp: init_particles, init_fields", "src/particles.cpp: load_cylindrical_spatial_distribution, charge_weighting", "src/bunch.cpp: bunch_inject"]}
{"id": "C90", "title": "Macroparticles at rest without fields stay as they are", "statement": "When all fields are zero and all macroparticles are at rest, a run of any length leaves all fields zero and all macroparticles where they are and at rest, whatever their charges.", "quantifier": "every valid grid, list of species, pusher, time step, number of cycles and schedule of the parallel loops", "why_tests_cant": "It is about all histories; a test runs some steps of one plasma.", "anchors": ["src/loadInitParam.cpp: run", "src/particles.cpp: step_v, move_half_reflect, back_position_to_rz, back_velocity_to_rz, full_current_distribution", "src/eField.cpp: calc_field", "src/hField.cpp: calc_field", "src/loadInitParam.cpp: init_fields"]}
{"id": "C91", "title": "Thermal energies have the probabilities of one accepted round", "statement": "With independent draws, the energy that the sampler stores for a macroparticle has the law of the energy of a single round given that this round is accepted; with a uniform second draw the weight of an energy is the velocity that belongs to it; the loop ends with probability one and the number of rounds is geometric.", "quantifier": "every temperature from 0.1 to 3000, every law of the first draw, every measurable set of energies, any number of rounds", "why_tests_cant": "A law is a statement about infinitely many draws; a test sees a sample and a loop that does not end cannot be seen at all.", "anchors": ["src/math/maxwellJuttner.cpp: maxwellJuttner", "src/math/rand.cpp: uniform"]}
{"id": "C92", "title": "Thermal energies follow the Maxwell-J\u00fcttner distribution", "statement": "With uniform draws the probability that the sampler draws an energy above any limit is that of the Maxwell-J\u00fcttner distribution of the given temperature, within a stated error; a plasma has the temperature that the configuration names.", "quantifier": "every positive temperature up to 3000 in units of the rest energy (below 0.1 the distribution is that of Maxwell), every limit of the energy, every law of the draws that is uniform up to rounding", "why_tests_cant": "The tables of the sampler have a thousand entries that are used with interpolation, and an error of one of them shifts a small part of the distribution only; a test of a histogram has noise that hides it.", "anchors": ["src/math/maxwellJuttner.cpp: maxwellJuttner, lnInvH, lnInvF", "src/particles.cpp: velocity_distribution", "src/math/rand.cpp: uniform"]}
{"id": "C93", "title": "The plasma starts without drift, alike in all directions and with the thermal energy of its temperature", "statement": "With uniform draws the mean velocity of the macroparticles at the start is zero, the velocities have the same law in all directions, and the mean kinetic energy is three halves of the temperature in the configuration.", "quantifier": "every mass, every sampled energy, all draws of the directions; for the mean energy all temperatures", "why_tests_cant": "These are means over all draws; the mean of a run has noise, and a test cannot tell a factor that is off by some percent from it.", "anchors": ["src/particles.cpp: velocity_distribution", "src/math/maxwellJuttner.cpp: maxwellJuttner", "src/math/rand.cpp: uniform, uniform2", "parameters.xml.in: temperature"]}
{"id": "C94", "title": "Results do not depend on how the plasma is divided into macroparticles", "statement": "Fields, currents and where how much matter of each kind is, after any number of time steps, are the same if macroparticles are listed in another order, if species or bunches are merged or split, or if a macroparticle is replaced by several with the same place, velocity and ratio of charge to mass and the same total mass.", "quantifier": "all lists of species and macroparticles, all divisions of the same matter, all grids, time steps and schedules, every number of time steps", "why_tests_cant": "There is no end of divisions, and a deposit that depended on order or weight would show as a small difference in sums of thousands of terms.", "anchors": ["src/particles.cpp: current_distribution, simple_current_distribution, azimuthal_current_distribution, step_v", "src/loadInitParam.cpp: run"]}
{"id": "C95", "title": "Exchanging the signs of charges, changing their scale and reflection are symmetries of the whole simulation", "statement": "With all charges multiplied by a number and all masses by its square the macroparticles move exactly as before, and fields and currents are multiplied by that number; so exchanging the signs of all charges reverses all fields and nothing else. Reversing the azimuthal velocities reverses the azimuthal currents and electric field and the magnetic field in the plane of the grid, and nothing else.", "quantifier": "all states, all factors, all grids, time steps and schedules, every number of time steps", "why_tests_cant": "A slip of sign in one of a dozen update formulas gives plausible fields; a test of one formula does not see whether all fit together.", "anchors": ["src/particles.cpp: boris_pusher_single, vay_pusher_single, current_distribution", "src/hField.cpp: calc_field", "src/eField.cpp: calc_field", "src/loadInitParam.cpp: run"]}
{"id": "C96", "title": "The field solver converges to Maxwell's equations with second order", "statement": "For every smooth solution of Maxwell's equations in the conducting cylinder there is one constant such that on every grid and with every time step within the stability limit the fields computed up to a given time differ from the solution, in the mean square over the cylinder, by at most that constant times dt^2 + dr^2 + dz^2, provided the deposited currents, the tables of the medium and the start are those of the solution; errors of these enter linearly. The zero fields a run starts with cost an error of second order too if the solution has no fields at time zero.", "quantifier": "all smooth solutions, media and currents, all grids of the cylinder, all time steps within the limit, every number of steps up to the time, all schedules of the threads", "why_tests_cant": "A test compares one grid with one known solution; a wrong factor at the axis or a term taken at the wrong time or place gives a small error that does not vanish, which only the limit over all grids shows.", "anchors": ["src/hField.cpp: calc_field", "src/eField.cpp: calc_field", "src/loadInitParam.cpp: run"]}
{"id": "C97", "title": "The plasma starts with the configured density", "statement": "When a species is loaded, the charge in every cylinder of plasma is its charge times the integral of the configured linear density over it, up to an error that vanishes as the number of macroparticles grows, whatever the grid.", "quantifier": "all grids with at least three nodes each way, all positive densities, all cylinders in the plasma, all numbers of macroparticles", "why_tests_cant": "A test counts macroparticles in a few cells for one number of them; a constant factor in the density looks like noise there, and that the sequence of places fills every cylinder evenly is a statement about all lengths of the sequence.", "anchors": ["src/particles.cpp: load_cylindrical_spatial_distribution", "src/math/rand.cpp: random_reverse", "src/loadInitParam.cpp: init_particles"]}
{"id": "C98", "title": "A movie shows every n-th frame of the time asked for", "statement": "The movie made with a time range and a frame step consists of the dumped frames of that range whose number is a multiple of the step, in order, and each carries the time at which the simulator dumped it.", "quantifier": "all time ranges and frame steps, all numbers of frames per file, all contents of the result files, all orders of the probes in the configuration", "why_tests_cant": "A test looks at one movie; frames lost at the end of a range or with a step depend on how range, step and frames per file divide each other.", "anchors": ["tools/movie_3_E_RHObeam_r_z_map.py: run", "tools/movie_1_density_map.py: run", "tools/movie_1_temperature_map.py: run", "tools/lib/parameters.py: get_frame_number_by_timestamp"]}
{"id": "C99", "title": "The converter carries text results over to HDF5", "statement": "Converting the text results of a run gives an HDF5 file with every frame of the time range of the asked components.", "quantifier": "all configurations and results", "why_tests_cant": "A test converts one run; the claim is about all configurations.", "anchors": ["tools/plain2hdf5.py: run", "tools/lib/parameters.py: Parameters"]}
{"id": "C100", "title": "The axes of a map read the coordinates of what is drawn", "statement": "At every place of a map drawn by the movie scripts the axes read the coordinates of the node of the grid whose value is drawn there; labels increase along the axes and there are enough of them to read a coordinate.", "quantifier": "all chambers and all grids", "why_tests_cant": "A test looks at one chamber; number, place and digits of the labels depend on the sizes and on how they compare.", "anchors": ["tools/lib/plot_builder.py: PlotBuilder", "tools/movie_3_E_RHObeam_r_z_map.py: run", "tools/movie_1_density_map.py: run", "tools/movie_1_temperature_map.py: run"]}
{"id": "C101", "title": "Rounding leads no macroparticle and no index out of the grid", "statement": "With the arithmetic of the machine instead of exact numbers: whatever the fields and however long the run, every macroparticle stays strictly inside the chamber before, during and after each cycle, every cell its position is assigned to is a cell of the arrays, and the cells before and after a cycle are the same or neighbours.", "quantifier": "all histories: numbers of cycles, momenta the fields give in each, and roundings of every computed value, for all grids and time steps in which light passes no more than three quarters of a cell", "why_tests_cant": "The rounding of values at walls and at cell borders depends on the last digit of sizes and positions, on the compiler and on the processor; a test meets the bad digit almost never.", "anchors": ["src/particles.cpp: half_step_pos_single", "src/particles.cpp: back_position_to_rz_single", "src/particles.cpp: reflection_single", "src/bunch.cpp: reflection_single", "src/lib.cpp: get_gamma_inv", "include/geometry.h: CELL_NUMBER", "src/hField.cpp: get_field"]}
{"id": "C102", "title": "Rounding errors of the fields grow no faster than the number of steps", "statement": "With a time step below the stability limit, the fields computed with the arithmetic of the machine differ from those the same update formulas give with exact numbers, for the same deposited currents, by an amount whose energy is at most the square of a constant times the number of steps, times the unit of rounding, times the square root of the largest energy of the exact fields and currents, apart from underflow. The constant depends on the distance of the step from the limit and on the number of deposits in a step, not on the grid, the medium or the order in which threads deposit.", "quantifier": "all initial fields, media, grids, currents, orders of deposits, roundings within the bound of the arithmetic and numbers of steps up to 2^40 times the square root of the relative distance from the limit", "why_tests_cant": "An amplified rounding error shows only after many steps, on some grids and fields, and a test has no exact solution to compare with; each run gives one pattern of roundings, and threads give another one every time.", "anchors": ["src/hField.cpp: calc_field", "src/eField.cpp: calc_field", "src/current.cpp: inc_j_r", "src/current.cpp: inc_j_phi", "src/current.cpp: inc_j_z", "include/constant.h: EPSILON0", "include/constant.h: MAGN_CONST"]}
{"id": "C103", "title": "What happens far away is not felt at once", "statement": "With the relativistic Boris or the Vay pusher and a time step in which light crosses at most a cell, take two simulations that have the same medium, fields, macroparticles and injection inside a rectangle of the grid and anything outside it. After n cycles of the main loop, all field components, currents and macroparticles are the same at every place that is more than 4 n cells inside the rectangle, whatever the number of threads and their schedule. Without macroparticles (given currents) the distance is n cells.", "quantifier": "all pairs of simulations that agree inside a rectangle, all rectangles, grids, media, injections, numbers of cycles and schedules", "why_tests_cant": "A read from a wrong node, a sum over the whole chamber or a shared variable couples distant places by an amount that may be small; a test compares two particular runs and cannot vary everything outside the rectangle.", "anchors": ["src/hField.cpp: calc_field", "src/eField.cpp: calc_field", "src/particles.cpp: boris_pusher", "src/particles.cpp: vay_pusher", "src/particles.cpp: half_step_pos", "src/particles.cpp: Particles::azimuthal_current_distribution", "src/particles.cpp: Particles::current_distribution", "src/loadInitParam.cpp: run"]}
{"id": "C104", "title": "A run needs a bounded amount of memory, and objects give back what they took", "statement": "Creating and deleting species, bunches, charge densities, fields, currents and solvers in any order has no undefined behaviour, and when all are deleted the same memory is in use as before. Pushing any number of macroparticles in any number of threads leaves the memory in use unchanged. For every configuration there is an amount of memory that is enough for runs of every length: with no bunches added, a cycle of the main loop leaves no memory behind.", "quantifier": "all histories of creations and deletions, grid sizes, numbers of macroparticles, schedules of threads, addresses that the allocator chooses, and runs of every length", "why_tests_cant": "A leak of a few bytes in each step, or an array given back as a single object, passes every test that runs for a short time; a test with a leak checker sees one history and one schedule.", "anchors": ["src/particles.cpp: ~Particles", "src/particles.cpp: boris_pusher_single", "src/field.cpp: ~Field", "src/eField.cpp: ~EField", "src/hField.cpp: ~HField", "src/current.cpp: ~Current", "src/chargeDensity.cpp: ~ChargeDensity", "src/poissonDirichlet.cpp: poisson_solve", "src/math/fourier.cpp: fast_sine_transform", "src/loadInitParam.cpp: init_beam", "src/loadInitParam.cpp: dump_data", "src/probePlain.cpp: get_data_path", "src/lib.cpp: get_simulation_duration"]}
{"id": "C105", "title": "What the plotting tools read from the output of a run is the state of the run", "statement": "Start the program with any configuration of plasma, beam and probes, let it run for any number of iterations, and read its output with the tools. Frame number n of a field or current is, to six digits, the array that the simulation had after iteration n times the schedule of the probe, and the same holds for columns and single nodes. The frame of macroparticles of a species has exactly the macroparticles of that species that were in the window then, all of them alive and in the region. Writing output never changes the simulation. The time that the tools give a frame is the time of the state in it.", "quantifier": "all geometries, plasmas, beams, lists of probes, schedules, numbers of frames in a file, windows, runs of every length and every schedule of threads", "why_tests_cant": "The relation joins the main loop, the deposition in parallel, the writer and a reader in another language; a test sees one configuration and compares a few numbers, and a shift by one iteration or a swap of two arrays looks like a plausible picture.", "anchors": ["src/loadInitParam.cpp: run", "src/loadInitParam.cpp: dump_data", "src/loadInitParam.cpp: init_beam", "src/probePlain.cpp: write_frame", "src/probePlain.cpp: write_col", "src/probePlain.cpp: write_dot", "src/probePlain.cpp: mpwrite", "tools/lib/plain_reader.py: get_frame", "tools/lib/plain_reader.py: get_col", "tools/lib/plain_reader.py: get_dot", "tools/lib/plain_reader.py: get_mpframe", "tools/lib/parameters.py: get_timestamp_by_frame_number"]}
{"id": "C106", "title": "The table on the terminal tells what was saved", "statement": "While the program runs, it prints exactly one line for each frame that it saves, in the order of iterations and of the probes in the configuration. A line gives the number of the iteration, the number of the frame as the files have it, the type, component and species of the probe, its place, and the model time, which is the number of the iteration times the time step. A header comes before each twentieth line. Printing has no undefined behaviour for any probe that could be made, and a script can split each line at its blanks.", "quantifier": "all lists of probes, positive schedules, time steps, runs up to the range of int, names and places of probes", "why_tests_cant": "Names and numbers of every length have to fit in fixed buffers and columns, and the counts of frames have to agree with those of the writer over whole runs; a test prints a few short lines.", "anchors": ["src/loadInitParam.cpp: print_data", "src/loadInitParam.cpp: dump_data", "include/loadInitParam.h: printed_step", "src/probePlain.cpp: ProbePlain"]}
{"id": "C107", "title": "The functional test says whether a run agrees with the reference", "statement": "The functional test compares twelve components of a run with reference files. It says that it passed exactly when every number of the run is near the number at the same place of the reference: the difference is at most one plus a thousandth (with fast mathematics a tenth or a quarter) of the number of the reference, and an entry that is not a number stands only where the reference has one. It never passes when a file is missing, and its exit status tells the result.", "quantifier": "all contents of the files of the run and of the reference, both kinds of test, both kinds of mathematics", "why_tests_cant": "It is a statement about the test itself: which wrong outputs it would let through, over all outputs.", "anchors": ["test/functional/test.py: compare", "test/functional/test.py: test_example"]}
{"id": "C108", "title": "Rounding does not stop a run or change the speed of macroparticles", "statement": "With the arithmetic of the machine, in every cycle a macroparticle is slower than light and the relativistic factor of its velocity is computed to several digits: the program is not ended by a complex Lorentz factor and does not use the replacement 1e100 for an infinite one. Without electric field the computed speed stays that of the start up to a part in 2^41 of the speed of light per cycle, whatever the magnetic field.", "quantifier": "all fields in every cycle, all starting points and velocities, numbers of cycles, grids, and all errors within the stated bounds; in particular IEEE 754", "why_tests_cant": "Errors add up over millions of cycles and depend on every bit of the values; a test follows a few macroparticles.", "anchors": ["src/particles.cpp: Particles::boris_pusher_single", "src/particles.cpp: Particles::back_velocity_to_rz_single", "src/lib.cpp: get_gamma", "src/lib.cpp: get_gamma_inv"]}
{"id": "C109", "title": "The spectrum notebook shows the amplitudes and frequencies of the waves in the data", "statement": "For a component saved in a point, the spectrum notebook takes the frames of the asked range of times and shows each wave in it at its frequency with its amplitude, and nothing at the other frequencies.", "quantifier": "all signals that are sums of waves, numbers of samples, time steps, schedules, components, lists of probes and ranges of times", "why_tests_cant": "The curve has to be right for every mixture of waves and every number of samples; a test looks at one signal, and an error of a few percent of the frequency or a factor does not attract attention.", "anchors": ["tools/view_1_fft.ipynb: start_frame", "tools/view_1_fft.ipynb: x_f", "tools/view_1_fft.ipynb: y_f", "tools/lib/parameters.py: get_frame_number_by_timestamp"]}
{"id": "C110", "title": "The velocity distribution counts every macroparticle once and removes the directed velocity", "statement": "The notebook of the velocity distribution shows, for equal segments of the speed, the numbers of macroparticles in them; each macroparticle is in one segment. The directed velocity, which is the mean in a cell, is subtracted before.", "quantifier": "all lists of macroparticles, numbers of segments, windows and grids", "why_tests_cant": "Whether every macroparticle is counted once depends on values at the borders of segments and cells; a test takes a few.", "anchors": ["tools/view_1_velocity_distribution.ipynb: slices", "tools/view_1_velocity_distribution.ipynb: subtrahend_r", "tools/view_1_velocity_distribution.ipynb: r_cell_number"]}
{"id": "C111", "title": "Rounding spoils neither div B nor Gauss's law by more than the sum of the roundings", "statement": "In a run with the arithmetic of the machine, the divergence of the magnetic field and, in a uniform medium without losses, the difference between electric flux and enclosed charge change in one step by no more than the rounding errors of the values around the cell, and these errors add up but are not amplified: after N steps the change is at most N times the largest of one step, plus the charge that the deposited currents do not account for. The deposited currents may be summed in any order.", "quantifier": "all grids, media without losses, initial fields, currents, orders of deposits, roundings within the bound of the arithmetic, cells and numbers of steps", "why_tests_cant": "A run that violates Gauss's law slowly looks like a right one for a long time; a test sees a few steps of one run, and threads give other roundings every time.", "anchors": ["src/hField.cpp: calc_field", "src/eField.cpp: calc_field", "src/current.cpp: inc_j_r", "src/current.cpp: inc_j_z"]}
{"id": "C112", "title": "The pushers converge to the motion of the Lorentz force, with second order in the time step", "statement": "A particle pushed with the Boris pushers through fields that change smoothly has, after N steps, the momentum and velocity of the solution of m du/dt = q (E + v x B) at the time N dt up to an error of second order in the time step, with constants that depend only on charge, mass, fields and the length of the run: halving the time step divides the error by four. Every pusher a user can choose has this property.", "quantifier": "all charges, masses, fields, smooth solutions of the equation of motion, start velocities below the speed of light, time steps and numbers of steps", "why_tests_cant": "A test compares one trajectory at a few time steps with a tolerance; it does not see a constant that grows with the length of the run, nor the floor under the error that the cut of small velocities leaves.", "anchors": ["src/particles.cpp: boris_pusher_single", "src/particles.cpp: vay_pusher_single", "include/constant.h: MNZL"]}
{"id": "C113", "title": "The paths of macroparticles converge to the motion of a charge, with second order in the time step", "statement": "A macroparticle that starts at the place and with the velocity of a charge in given smooth fields, and is moved by any number of cycles of the program with fields interpolated from the grid, is where the charge is, with its velocity, up to a constant times the square of the time step and the error of the interpolated fields. The constant does not depend on the grid, the time step or the number of cycles. It does not leave the region of the macroparticles as long as the charge does not come near the walls. This holds for every direction of motion.", "quantifier": "all smooth fields, charges, masses, solutions of the equation of motion, grids, fields on the grid, time steps and numbers of cycles", "why_tests_cant": "Tests see a few paths at a few time steps. The order of the half steps, of the push and of the turn of the velocity is wrong in a way that shows up only in the limit of small time steps and only for motion around the axis.", "anchors": ["src/particles.cpp: step_v", "src/particles.cpp: half_step_pos_single", "src/particles.cpp: back_position_to_rz_single", "src/particles.cpp: back_velocity_to_rz_single", "src/particles.cpp: move_half_reflect"]}
{"id": "C114", "title": "The curves over time show the values of the point, at the times they were dumped", "statement": "The notebooks of the electric field and of the temperature over time, asked for a point and a range of times, show for every component the values that the program dumped in that point for the frames of that range, in their order, each at the time of its dump, whichever of the configured probes save the point.", "quantifier": "all configurations, lists of probes, points, ranges of times, dumped values and both notebooks", "why_tests_cant": "The notebooks choose between probes of a point, columns, rows and windows and join the pieces of files. A test looks at one configuration, and a wrong time, point or length shows up only with other windows, ranges or orders of the probes.", "anchors": ["tools/view_2_E_t.ipynb: autoselect", "tools/view_1_temperature_t_dot.ipynb: autoselect", "tools/lib/parameters.py: get_frame_number_by_timestamp"]}
{"id": "C115", "title": "The place along the axis and the length of the chamber do not matter", "statement": "Take two simulations in chambers with the same radius and the same cells but any lengths. If the conductivities, the macroparticles and the injection in a window of the first are those in a window of the second any whole number of cells further along the axis, and the windows contain the same walls, then after n cycles all field components, currents and macroparticles more than 4 n cells inside the windows are the same. In particular a longer chamber gives the same results up to 4 n cells before the place where the chambers begin to differ.", "quantifier": "all pairs of chambers, windows, shifts, fields, sets of macroparticles and bunches, conductivities, injections, numbers of cycles and schedules", "why_tests_cant": "Tests would compare a few runs in two chambers. An absolute index or coordinate in one branch of the weighting, of the interpolation or of the reflection, or a use of the length of the chamber for a cell, shows up only for some places.", "anchors": ["src/particles.cpp: current_distribution", "src/particles.cpp: simple_current_distribution", "src/particles.cpp: strict_motion_weighting", "src/particles.cpp: azimuthal_current_distribution", "src/particles.cpp: reflection_single", "src/bunch.cpp: reflection_single", "src/eField.cpp: calc_field", "src/hField.cpp: calc_field", "src/eField.cpp: get_field", "src/hField.cpp: get_field", "include/geometry.h: CELL_NUMBER"]}
{"id": "C116", "title": "Maps and profiles show the values at the time and place asked for", "statement": "The notebooks of one time show, for every data set asked for, the values that were saved: a map shows the asked window row by row, a radial profile the values along the radius at the asked place on the axis, a profile along the axis those at the asked radius, each value at its own coordinate. The frame is one whose time is at most half the interval between two frames of its probe away from the asked time. Data saved in a bigger window are found too if this is asked for.", "quantifier": "all sets of probes, windows, times, places, values saved, species and sizes of the grid", "why_tests_cant": "Tests would look at a few configurations. Which data are drawn depends on all probes together, on their order and on where their windows begin, and a wrong place or time gives a plausible picture.", "anchors": ["tools/view_1_density_map.ipynb: autoselect", "tools/view_1_temperature_map.ipynb: autoselect", "tools/view_3_E_RHObeam_r_z_map.ipynb: autoselect", "tools/view_4_E_T_rho_map.ipynb: autoselect", "tools/view_1_density_profile.ipynb: col_number", "tools/view_1_temperature_profile.ipynb: col_number", "tools/view_1_density_longitudial_profile.ipynb: row_number", "tools/lib/plain_reader.py: get_frame", "tools/lib/h5_reader.py: get_frame"]}
{"id": "C117", "title": "Both directions along the axis are treated alike", "statement": "If the fields, permittivities, conductivities and macroparticles of one simulation (or the fields and currents of one run of the field solver alone) are the mirror image of those of another, the mirror being in the middle of the chamber, they stay so: after any number of cycles every field and current component at every node is that of the other at the mirror node, with the sign a vector (electric field, current) or an axial vector (magnetic field) has in a mirror, and every macroparticle is at the mirror image of the place of the other, with the mirrored velocity.", "quantifier": "all sizes of the grid, fields, currents, permittivities, conductivities, macroparticles, injections, time steps, numbers of cycles and schedules", "why_tests_cant": "Tests would look at a few symmetric fields. Loops that leave out the last column and materials taken from the nearest column on one side break the symmetry at one end of the chamber only.", "anchors": ["src/eField.cpp: calc_field", "src/hField.cpp: calc_field", "src/current.cpp: reset_j", "src/eField.cpp: koef_e", "src/particles.cpp: reflection", "src/particles.cpp: current_distribution", "src/bunch.cpp: reflection"]}
{"id": "C118", "title": "Without conductivity the field solver can be run backwards", "statement": "After any number of steps of the field solver without conductivity, with any currents, reverse the magnetic field after its next update, and run as many steps with the currents in reverse order and in the other direction. The electric field is then that of the start, and the magnetic field that after the first magnetic update, reversed, at every node.", "quantifier": "all sizes of the grid, fields, currents, positive permittivities, time steps, numbers of steps and schedules", "why_tests_cant": "Tests would run a few cases there and back. Any numerical damping or any value that is updated from one that is already new makes the way back differ, by amounts a tolerance hides.", "anchors": ["src/eField.cpp: calc_field", "src/hField.cpp: calc_field", "src/current.cpp: reset_j", "src/eField.cpp: koef_h"]}
{"id": "C119", "title": "Maps of a line over time show the values along the line, at the times asked for", "statement": "The notebooks that show a component along a column or a row of the grid over time draw, for every component, one row for every frame of the asked range of times, in order, and in it the values that were saved along the asked line, from its first node to its last. The scales of the axes read places along the line and times. Lines saved only in a window across the chamber are found too if this is asked for.", "quantifier": "all sets of probes, lines, ranges of times, numbers of frames in a file, values saved and sizes of the grid", "why_tests_cant": "Tests would look at a few configurations. The picture depends on all probes together and on how the range of times falls into files, and a map of the wrong line, of other times or of another pair of coordinates still looks like a wave.", "anchors": ["tools/view_1_Hphi_r_t.ipynb: autoselect", "tools/view_1_Hphi_z_t.ipynb: autoselect", "tools/view_2_E_r_t.ipynb: autoselect", "tools/view_2_E_z_t.ipynb: autoselect", "tools/lib/parameters.py: get_frame_number_by_timestamp", "tools/lib/plot_builder.py: PlotBuilder"]}
{"id": "C120", "title": "The curve of the mean temperature shows the mean over the asked window, at the times asked for", "statement": "The notebook of the temperature of a window over time draws one point for every frame of the asked range of times, in order: the mean over those cells of the asked window that have a temperature (zero if none has), at the time of the dump. Temperatures saved only in a bigger window are found too if this is asked for.", "quantifier": "all sets of probes, windows, species, ranges of times, numbers of frames in a file and values saved, with any cells without a temperature", "why_tests_cant": "Tests would look at a few configurations. A mean over the wrong cells or a curve with too many points is still a smooth curve of plausible values.", "anchors": ["tools/view_1_temperature_t_frame.ipynb: data_collector", "tools/view_2_temperature_t_frame.ipynb: data_collector2", "tools/lib/parameters.py: get_frame_number_by_timestamp", "tools/lib/plain_reader.py: get_frame_range"]}
{"id": "C121", "title": "The images of the short-time spectra show the amplitudes of each component in the asked point at its frequencies and times", "statement": "The notebook of short-time spectra shows one image for each component of the electric field: in the column of a time after the beginning of the asked range and the row of a frequency, the amplitude at this frequency of the values of this component in the asked point around the dump at that time. An oscillation with the frequency of a row has half of its amplitude there, and a constant field its size at the frequency zero. The scale beside an image is the scale of this image.", "quantifier": "all sets of probes, points, ranges of times, intervals between dumps, limits of the colours and values saved", "why_tests_cant": "Tests would look at a few signals. A spectrum of the wrong component, with the frequencies of another schedule or beside a wrong scale, still looks like a spectrum.", "anchors": ["tools/view_2_E_stft.ipynb: data_r", "tools/view_2_E_stft.ipynb: stft", "tools/view_2_E_stft.ipynb: colorbar", "tools/lib/parameters.py: get_frame_number_by_timestamp"]}
{"id": "C122", "title": "The curves that compare simulations show the temperature of each one at the asked place and times", "statement": "The notebooks that compare simulations draw one curve for each: the temperature of the asked specie of this simulation, at the asked radius and longitude, one point for every frame of the asked range of times, in order, near the time of the dump. This holds however the place is saved: by a probe of the point, a column, a row or a window.", "quantifier": "all numbers of simulations, configurations, sets of probes, places, ranges of times and values saved", "why_tests_cant": "Tests would compare a few pairs of simulations, most of them alike. A curve from another place or another time of the second simulation looks like a physical difference.", "anchors": ["tools/view_2_temperature_t_dot.ipynb: reader2", "tools/view_4_temperature_t_dot.ipynb: reader4", "tools/lib/parameters.py: get_row_by_radius", "tools/lib/parameters.py: get_frame_number_by_timestamp"]}
{"id": "C123", "title": "A notebook run from the command line runs with exactly the given values of its variables", "statement": "Running a notebook with `nbrun.sh notebook.ipynb name=value ...` runs the program of the notebook with every assignment of each named variable at the beginning of a line replaced by the given value, the last one if it is given more than once, and with all other lines as they are.", "quantifier": "all notebooks, all lists of variables and values", "why_tests_cant": "Tests would try a few variables of a few notebooks. A setting that is silently kept gives a figure of something else than was asked for, and an edit of another line changes the program.", "anchors": ["tools/nbrun.sh: sed", "tools/nbrun.sh: cut", "README.md: nbrun.sh"]}
