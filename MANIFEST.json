{
 "claims": [
  {
   "property": "C01",
   "status": "proved",
   "theorems": [
    "Verif.C01_charge_conserved"
   ],
   "note": ""
  },
  {
   "property": "C02",
   "status": "proved",
   "theorems": [
    "Verif.C02_deposit_in_bounds_iff",
    "Verif.C02_deposit_local_and_signed"
   ],
   "note": ""
  },
  {
   "property": "C03",
   "status": "proved",
   "theorems": [
    "Verif.C03_deposit_order_independent",
    "Verif.C03_increments_any_interleaving",
    "Verif.C03_species_union",
    "Verif.C03_dead_contribute_nothing"
   ],
   "note": ""
  },
  {
   "property": "C04",
   "status": "proved",
   "theorems": [
    "Verif.C04_azimuthal_current_total",
    "Verif.C04_axis_faults"
   ],
   "note": ""
  },
  {
   "property": "C05",
   "status": "proved",
   "theorems": [
    "Verif.C05_in_cell_continuity"
   ],
   "note": ""
  },
  {
   "property": "C06",
   "status": "partial",
   "theorems": [
    "Verif.C06_many_particles_continuity_partial",
    "Verif.C06_cross_cell_continuity_partial",
    "Verif.C06_corner_violated"
   ],
   "note": "Continuity proved for every move of less than a cell in any of the eight directions whose pieces between faces are at least MNZL long and which does not pass exactly through a corner of cells, and for any number of particles; a path through a corner deposits no current, so the unrestricted claim is false (C06_corner_violated)."
  },
  {
   "property": "C07",
   "status": "partial",
   "theorems": [
    "Verif.C07_axial_continuity",
    "Verif.C07_radial_continuity_partial",
    "Verif.C07_radial_crossing_violated",
    "Verif.C07_near_axis_violated"
   ],
   "note": "Axial moves proved for off-axis positions; radial moves proved inside one cell. Radial moves to the next cell violate continuity (operator precedence slip at particles.cpp:941 and 976), as do moves in the half cell next to the axis; both negations are proved."
  },
  {
   "property": "C08",
   "status": "proved",
   "theorems": [
    "Verif.C08_divergence_constant",
    "Verif.C08_divergence_free_run"
   ],
   "note": ""
  },
  {
   "property": "C09",
   "status": "proved",
   "theorems": [
    "Verif.C09_walls_run",
    "Verif.C09_walls_update"
   ],
   "note": ""
  },
  {
   "property": "C10",
   "status": "proved",
   "theorems": [
    "Verif.C10_gauss_preserved"
   ],
   "note": ""
  },
  {
   "property": "C11",
   "status": "proved",
   "theorems": [
    "Verif.C11_energy_balance",
    "Verif.C11_energy_run"
   ],
   "note": ""
  },
  {
   "property": "C12",
   "status": "proved",
   "theorems": [
    "Verif.C12_updates_schedule_independent",
    "Verif.C12_step_schedule_independent"
   ],
   "note": ""
  },
  {
   "property": "C13",
   "status": "proved",
   "theorems": [
    "Verif.C13_setup_safe",
    "Verif.C13_run_safe"
   ],
   "note": ""
  },
  {
   "property": "C14",
   "status": "proved",
   "theorems": [
    "Verif.C14_time_centred",
    "Verif.C14_time_centred_run"
   ],
   "note": ""
  },
  {
   "property": "C15",
   "status": "proved",
   "theorems": [
    "Verif.C15_superposition"
   ],
   "note": ""
  },
  {
   "property": "C16",
   "status": "proved",
   "theorems": [
    "Verif.C16_gather_reads_valid",
    "Verif.C16_gather_outside_faults"
   ],
   "note": ""
  },
  {
   "property": "C17",
   "status": "partial",
   "theorems": [
    "Verif.C17_get_field_partial",
    "Verif.C17_get_field_violated",
    "Verif.C17_uniform_field_partial",
    "Verif.C17_linear",
    "Verif.C17_uniform_field_violated",
    "Verif.C17_smooth_partial"
   ],
   "note": "Linearity, independence of z and an error bound of 5/2*dr/r are proved; exact reproduction of a uniform field is false (the code divides partial volumes of one ring by volumes of other rings), negation proved. C17_smooth_partial bounds the error for fields that are not uniform: six times their variation around the particle plus the same relative error."
  },
  {
   "property": "C18",
   "status": "partial",
   "theorems": [
    "Verif.C18_boris_no_work",
    "Verif.C18_vay_perp_partial",
    "Verif.C18_vay_violated"
   ],
   "note": "Proved for all Boris modes for every field and velocity (components below 1e-15 m/s are first rounded to zero, which the statement accounts for). The Vay pusher keeps the speed only for velocities perpendicular or parallel to the field; C18_vay_violated proves it changes the speed for every other direction."
  },
  {
   "property": "C19",
   "status": "partial",
   "theorems": [
    "Verif.C19_push_subluminal",
    "Verif.C19_superluminal_stops",
    "Verif.C19_adaptive_violated"
   ],
   "note": "Proved for the relativistic Boris and Vay pushers and for every adaptive push that takes the relativistic branch. The default adaptive pusher leaves its branch flag uninitialised for slow particles; with the classical branch the claim is false (C19_adaptive_violated)."
  },
  {
   "property": "C20",
   "status": "proved",
   "theorems": [
    "Verif.C20_free_streaming"
   ],
   "note": ""
  },
  {
   "property": "C21",
   "status": "proved",
   "theorems": [
    "Verif.C21_lorentz_factor",
    "Verif.C21_gamma_monotone"
   ],
   "note": ""
  },
  {
   "property": "C22",
   "status": "partial",
   "theorems": [
    "Verif.C22_reflection_confines",
    "Verif.C22_cycle_partial",
    "Verif.C22_confined_forever_partial",
    "Verif.C22_azimuthal_violated"
   ],
   "note": "Confinement by one reflection is proved for every displacement up to the width of the region; over a whole cycle z and the distance from the axis are confined and the radius exceeds the wall by at most what the azimuthal displacement adds. The unrestricted claim is false: the return to the r-z plane happens after the reflection (C22_azimuthal_violated)."
  },
  {
   "property": "C23",
   "status": "partial",
   "theorems": [
    "Verif.C23_rotation_keeps_distance_and_speed",
    "Verif.C23_components_iff",
    "Verif.C23_components_violated"
   ],
   "note": "Distance, z, zero azimuthal coordinate and speed are proved; the rotated components are the cylindrical ones only when the azimuthal coordinate is zero (C23_components_iff), the code rotates the other way (C23_components_violated)."
  },
  {
   "property": "C24",
   "status": "proved",
   "theorems": [
    "Verif.C24_absorbed_inert",
    "Verif.C24_absorbed_iff"
   ],
   "note": ""
  },
  {
   "property": "C25",
   "status": "proved",
   "theorems": [
    "Verif.C25_total_charge"
   ],
   "note": ""
  },
  {
   "property": "C26",
   "status": "proved",
   "theorems": [
    "Verif.C26_position",
    "Verif.C26_left_boundary_violated",
    "Verif.C26_code_draws"
   ],
   "note": "Proved for the way the program calls the loader (left boundary 0) including the draws it really makes. C26_left_boundary_violated records that the unused left boundary argument misplaces a uniform plasma."
  },
  {
   "property": "C27",
   "status": "proved",
   "theorems": [
    "Verif.C27_total",
    "Verif.C27_injective",
    "Verif.C27_equidistributed",
    "Verif.C27_base_one_diverges"
   ],
   "note": ""
  },
  {
   "property": "C28",
   "status": "partial",
   "theorems": [
    "Verif.C28_total_charge_partial",
    "Verif.C28_near_axis_violated"
   ],
   "note": "Exact when no macroparticle is drawn within one cell of the axis; otherwise the bunch carries strictly more charge than prescribed (C28_near_axis_violated: the volume sum switches formula at r = dr, the weights at r = dr/2)."
  },
  {
   "property": "C29",
   "status": "partial",
   "theorems": [
    "Verif.C29_effect",
    "Verif.C29_at_most_once",
    "Verif.C29_exactly_once_partial",
    "Verif.C29_leftover_violated",
    "Verif.C29_off_step_violated",
    "Verif.C29_zero_duration_fails"
   ],
   "note": "At most once, only in the window, and the injected state are proved for all inputs. Exactly once holds when the bunch begins on a step and the number of steps divides the number of macroparticles; otherwise macroparticles are left out (two negations proved)."
  },
  {
   "property": "C30",
   "status": "proved",
   "theorems": [
    "Verif.C30_one_per_step",
    "Verif.C30_schedule",
    "Verif.C30_schedule_usual"
   ],
   "note": ""
  },
  {
   "property": "C31",
   "status": "proved",
   "theorems": [
    "Verif.C31_steps",
    "Verif.C31_nonpositive_step_diverges"
   ],
   "note": ""
  },
  {
   "property": "C32",
   "status": "proved",
   "theorems": [
    "Verif.C32_probe_files",
    "Verif.C32_record_from_zero",
    "Verif.C32_six_digits",
    "Verif.C32_window_outside_fails"
   ],
   "note": ""
  },
  {
   "property": "C33",
   "status": "partial",
   "theorems": [
    "Verif.C33_read_back_partial",
    "Verif.C33_precision",
    "Verif.C33_incomplete_violated",
    "Verif.C33_rerun_violated"
   ],
   "note": "Read-back proved for every frame in a filled file (C33_read_back_partial, precision in C33_precision). False otherwise: C33_incomplete_violated (frames of the unfilled last file cannot be read), C33_rerun_violated (a second run into the same directory appends, old frames are returned)."
  },
  {
   "property": "C34",
   "status": "partial",
   "theorems": [
    "Verif.C34_range_partial",
    "Verif.C34_same_file_violated",
    "Verif.C34_frame_range_partial",
    "Verif.C34_last_frame_garbage_violated",
    "Verif.C34_crossing_violated",
    "Verif.C34_last_frame_unreachable_violated",
    "Verif.C34_dot_origin_violated",
    "Verif.C34_probe_range_partial"
   ],
   "note": "C34_range_partial / C34_probe_range_partial (col, row, dot ranges over a file boundary), C34_frame_range_partial. The rest is violated: same-file ranges raise, last frame is uninitialised memory, crossing ranges raise or are garbage, last frame unreachable, dots at row or column 0 unreadable."
  },
  {
   "property": "C35",
   "status": "partial",
   "theorems": [
    "Verif.C35_transparent_partial",
    "Verif.C35_never_wrong_partial",
    "Verif.C35_mpframe_violated",
    "Verif.C35_dot_violated",
    "Verif.C35_col_second_read_violated",
    "Verif.C35_stale_violated"
   ],
   "note": "C35_transparent_partial for all histories of frame and row-range reads (key strings proved injective). Violated for macroparticle frames, dot ranges, column ranges (second read raises) and leftover cache directories."
  },
  {
   "property": "C36",
   "status": "partial",
   "theorems": [
    "Verif.C36_accepted_partial",
    "Verif.C36_axial_step_violated",
    "Verif.C36_courant_violated",
    "Verif.C36_uninitialised_violated",
    "Verif.C36_negative_violated",
    "Verif.C36_warning",
    "Verif.C36_warning_violated",
    "Verif.C36_accepted_step_unstable_violated"
   ],
   "note": "What the checks accept is characterised exactly for non-negative input, and the warning about macroparticles for every input (C36_warning). Violated: the axial step is never compared with the Debye length, the Courant condition is not implied, the macroparticle counter is uninitialised, negative densities pass every check (NaN), the warning does not know the grid."
  },
  {
   "property": "C37",
   "status": "partial",
   "theorems": [
    "Verif.C37_density_total_partial",
    "Verif.C37_density_nonneg_partial",
    "Verif.C37_memory_violated",
    "Verif.C37_ions_violated",
    "Verif.C37_dead_violated",
    "Verif.C37_wall_violated"
   ],
   "note": "Proved on an array of the grid size for particles inside. Violated: array too small (out of bounds at every start), electron mass used for all species, absorbed particles counted, z = 0 wraps to a huge unsigned index."
  },
  {
   "property": "C38",
   "status": "partial",
   "theorems": [
    "Verif.C38_classic_partial",
    "Verif.C38_memory_violated",
    "Verif.C38_wall_violated",
    "Verif.C38_weighted_partial"
   ],
   "note": "Both algorithms. Violated: pointer arrays of the result too short, particles on the axis or lower wall fault. Empty cells give NaN."
  },
  {
   "property": "C39",
   "status": "partial",
   "theorems": [
    "Verif.C39_average_partial",
    "Verif.C39_monotone_partial",
    "Verif.C39_last_column_violated",
    "Verif.C39_memory_violated"
   ],
   "note": "Averaging proved where the destination is assigned; last column is never assigned; the arrays it is used on are too small."
  },
  {
   "property": "C40",
   "status": "proved",
   "theorems": [
    "Verif.C40_solves",
    "Verif.C40_dominant",
    "Verif.C40_singular_comment_violated"
   ],
   "note": "Exact for every size; success for strictly diagonally dominant matrices. The code comment that a zero pivot implies a singular matrix is refuted."
  },
  {
   "property": "C41",
   "status": "partial",
   "theorems": [
    "Verif.C41_fft_constant_error",
    "Verif.C41_fft_code_constant",
    "Verif.C41_fft_is_dft",
    "Verif.C41_other_lengths_fault",
    "Verif.C41_real_roundtrip_partial",
    "Verif.C41_real_roundtrip_violated",
    "Verif.C41_sine_transform",
    "Verif.C41_sine_roundtrip",
    "Verif.C41_sine_other_lengths_fault",
    "Verif.C41_cosine_violated",
    "Verif.C41_cosine_partial"
   ],
   "note": "The FFT equals the Fourier sum for every power of two (C41_fft_is_dft with exact \u03c0; C41_fft_code_constant bounds the effect of the decimal constant), the sine transform is inverted exactly (C41_sine_roundtrip). Disagreements: every other length faults; the real-data transform drops imaginary parts so its round trip only returns the symmetric part (C41_real_roundtrip_violated); the cosine transform overruns its buffer for every length (C41_cosine_violated)."
  },
  {
   "property": "C42",
   "status": "partial",
   "theorems": [
    "Verif.C42_poisson_partial",
    "Verif.C42_gauss",
    "Verif.C42_walls_violated",
    "Verif.C42_other_grids_fault",
    "Verif.C42_neumann_violated"
   ],
   "note": "On every grid with nz+1 a power of two, every run solves the discrete Poisson equation at all nodes below the outer wall (C42_poisson_partial) and the field obeys Gauss's law (C42_gauss). Missing because false of the code: the axial walls are not grounded (C42_walls_violated), other grids fault (C42_other_grids_fault), the Neumann solver always overruns its buffer (C42_neumann_violated)."
  },
  {
   "property": "C43",
   "status": "partial",
   "theorems": [
    "Verif.C43_sum",
    "Verif.C43_range_partial",
    "Verif.C43_boundary_violated",
    "Verif.C43_buffer_violated"
   ],
   "note": "Sum proved for every duration (C43_sum), ranges except at exactly 60, 3600, 86400 s (C43_range_partial, C43_boundary_violated). The text never fits its one byte buffer (C43_buffer_violated)."
  },
  {
   "property": "C44",
   "status": "proved",
   "theorems": [
    "Verif.C44_dispatch",
    "Verif.C44_cases"
   ],
   "note": "All argument vectors; argv[0] is searched too, and -f -h prints the usage."
  },
  {
   "property": "C45",
   "status": "proved",
   "theorems": [
    "Verif.C45_success",
    "Verif.C45_only_adds",
    "Verif.C45_trailing_slash_violated",
    "Verif.C45_complete"
   ],
   "note": "Success implies existence, only directories on the way are added, termination by well-founded recursion, clean paths succeed. A path with trailing slash whose parent is missing is created but reported as failed (C45_trailing_slash_violated). No links and no '..' in the file system model."
  },
  {
   "property": "C46",
   "status": "partial",
   "theorems": [
    "Verif.C46_zero_outside",
    "Verif.C46_bounds_partial",
    "Verif.C46_defined",
    "Verif.C46_monotone_left",
    "Verif.C46_monotone_right",
    "Verif.C46_monotone_outer",
    "Verif.C46_overshoot_violated",
    "Verif.C46_thin_layer_violated",
    "Verif.C46_corner_hole_violated"
   ],
   "note": "Zero outside the layers, bounded and monotone inside; violated: overshoot of the maximum, one-cell-thin layers, corners."
  },
  {
   "property": "C47",
   "status": "proved",
   "theorems": [
    "Verif.C47_currents_per_step",
    "Verif.C47_history_independent"
   ],
   "note": ""
  },
  {
   "property": "C48",
   "status": "partial",
   "theorems": [
    "Verif.C48_outputs_partial",
    "Verif.C48_violated",
    "Verif.C48_legacy_violated"
   ],
   "note": "C48_outputs_partial: the i-th rho_beam probe of a step writes exactly (i+2) times the beam charge density; C48_violated: so no probe writes the density unless it is zero; C48_legacy_violated: the LEGACY build writes zero."
  },
  {
   "property": "C49",
   "status": "proved",
   "theorems": [
    "Verif.C49_cycle_gauss",
    "Verif.C49_run_gauss",
    "Verif.C49_closed_system"
   ],
   "note": ""
  },
  {
   "property": "C50",
   "status": "partial",
   "theorems": [
    "Verif.C50_push_schedule_independent",
    "Verif.C50_move_schedule_independent",
    "Verif.C50_rotation_schedule_independent",
    "Verif.C50_adaptive_violated"
   ],
   "note": "Proved for all interleavings of the three particle loops and all pushers given the branch flags; for the adaptive pusher the result depends on an uninitialised variable (C50_adaptive_violated)."
  },
  {
   "property": "C51",
   "status": "proved",
   "theorems": [
    "Verif.C51_energy_bounded",
    "Verif.C51_fields_bounded"
   ],
   "note": "The limit is sufficient for every grid, not sharp. For the separate fact that the configuration checks accept unstable steps see C36_accepted_step_unstable_violated."
  },
  {
   "property": "C52",
   "status": "partial",
   "theorems": [
    "Verif.C52_free_flight_partial",
    "Verif.C52_free_flight_violated"
   ],
   "note": "Exact without azimuthal velocity; false otherwise (C52_free_flight_violated) because the azimuthal displacement is folded into the radius after half of the step but the velocity is only rotated at the end."
  },
  {
   "property": "C53",
   "status": "partial",
   "theorems": [
    "Verif.C53_cleanup_violated",
    "Verif.C53_live_bunch_removed_violated",
    "Verif.C53_no_old_bunch_partial"
   ],
   "note": "Only the case without a finished bunch (or a single bunch) is safe; removal uses invalidated iterators and an uninitialised loop variable, both negations proved."
  },
  {
   "property": "C54",
   "status": "partial",
   "theorems": [
    "Verif.C54_speed_partial",
    "Verif.C54_speed_violated"
   ],
   "note": "Components are below the light speed and the speed is at most the classical one; the speed itself is not bounded by the light speed (C54_speed_violated) because the relativistic factor is computed per component."
  },
  {
   "property": "C55",
   "status": "proved",
   "theorems": [
    "Verif.C55_volume_weighting",
    "Verif.C55_azimuthal_volume_weighting"
   ],
   "note": "Node-by-node weights of charge and azimuthal current for particles in the closed chamber."
  },
  {
   "property": "C56",
   "status": "proved",
   "theorems": [
    "Verif.C56_local",
    "Verif.C56_node_value",
    "Verif.C56_nonneg"
   ],
   "note": ""
  },
  {
   "property": "C57",
   "status": "partial",
   "theorems": [
    "Verif.C57_boris_lorentz",
    "Verif.C57_electric_kick",
    "Verif.C57_vay_violated"
   ],
   "note": "Holds for the Boris pushers, with the new momentum determined by the equation, and for every pusher in an electric field. The Vay pusher scales the magnetic field by q dt/(2 m) three times: C57_vay_violated."
  },
  {
   "property": "C58",
   "status": "partial",
   "theorems": [
    "Verif.C58_push_deterministic_partial",
    "Verif.C58_adaptive_violated"
   ],
   "note": "The flag use_rel of the adaptive mode is not initialised: C58_adaptive_violated."
  },
  {
   "property": "C59",
   "status": "partial",
   "theorems": [
    "Verif.C59_few_digits_partial",
    "Verif.C59_index_partial",
    "Verif.C59_run_length_partial",
    "Verif.C59_run_length_violated",
    "Verif.C59_probe_twice_violated",
    "Verif.C59_probe_missed_violated",
    "Verif.C59_stall_violated"
   ],
   "note": "Same as the exact loop when dt has few binary digits (C59_few_digits_partial); otherwise the index is off by at most one in the first 2^26 steps and the run is at most one step longer or shorter. Violated by the shipped configurations: the functional test does 23 instead of 22 steps, probes of parameters.xml.in with schedule 5 fire at step 5 and 6, index 7 is skipped with 1e-12, and a tiny step stalls the loop."
  },
  {
   "property": "C60",
   "status": "partial",
   "theorems": [
    "Verif.C60_range_partial",
    "Verif.C60_classic_partial",
    "Verif.C60_table_end_violated",
    "Verif.C60_monotone_partial",
    "Verif.C60_monotone_top_violated",
    "Verif.C60_monotone_bottom_violated",
    "Verif.C60_relativistic_partial",
    "Verif.C60_negative_energy_violated",
    "Verif.C60_scaling_violated"
   ],
   "note": "Classical branch (T < 0.1): every draw but one gives a defined energy between 0 and 20.7 T, and larger draws give larger energies within the table and within the low branch. Relativistic branch: defined and positive gamma for 0.1 <= T <= 3000 and all double draws, for rejection sequences of any length. Fails: the draw at the table end reads past the table; energies drop at both branch limits; energy -1 from T = 5000 on; energies do not scale with T across 0.1 although T is in eV. The distribution of the energies is the subject of C92 and C93."
  },
  {
   "property": "C61",
   "status": "partial",
   "theorems": [
    "Verif.C61_directory",
    "Verif.C61_independent_partial",
    "Verif.C61_files_partial",
    "Verif.C61_no_fault",
    "Verif.C61_schedule_violated"
   ],
   "note": "Files of each probe equal those of a run with it alone, if directories differ (C61_directory says when: component, species, window). Two probes differing only in schedule share files (C61_schedule_violated). Beam density probes excluded, see C48."
  },
  {
   "property": "C62",
   "status": "partial",
   "theorems": [
    "Verif.C62_construct",
    "Verif.C62_typical",
    "Verif.C62_component_violated",
    "Verif.C62_late_violated"
   ],
   "note": "Exact conditions for construction, sufficient conditions for a run (C62_typical, C61_no_fault); a component of ten characters or a path of 94 to 99 overflows."
  },
  {
   "property": "C63",
   "status": "partial",
   "theorems": [
    "Verif.C63_files_partial",
    "Verif.C63_end_violated",
    "Verif.C63_dead_violated",
    "Verif.C63_negative_violated"
   ],
   "note": "Contents of all five files for every run; the end of the window is inclusive, dead particles are written and a negative start excludes everything."
  },
  {
   "property": "C64",
   "status": "partial",
   "theorems": [
    "Verif.C64_components",
    "Verif.C64_missing_violated",
    "Verif.C64_name_violated"
   ],
   "note": "Names of the nine arrays, temperature and density (C61_files_partial with Offers); misspelled or clashing names are silently never written."
  },
  {
   "property": "C65",
   "status": "partial",
   "theorems": [
    "Verif.C65_read_back_partial",
    "Verif.C65_truncated_violated",
    "Verif.C65_phi_violated"
   ],
   "note": "Violated: no more than cells times frames-per-file particles are returned; the position angle is never written and its read raises. Proved: otherwise the record is returned exactly."
  },
  {
   "property": "C66",
   "status": "partial",
   "theorems": [
    "Verif.C66_same_directory",
    "Verif.C66_frame_partial",
    "Verif.C66_col_partial",
    "Verif.C66_dot_partial",
    "Verif.C66_dot_violated",
    "Verif.C66_row_violated"
   ],
   "note": "Same directory for every probe type. get_frame and get_col give the record when its file is complete; get_dot always, except on the axis or left wall where it raises (violated); get_row always raises (violated)."
  },
  {
   "property": "C67",
   "status": "partial",
   "theorems": [
    "Verif.C67_integer",
    "Verif.C67_integer_text",
    "Verif.C67_decimal",
    "Verif.C67_silent_violated"
   ],
   "note": "Whole and decimal numerals are read exactly, with any white space before them (over the reals; double rounding is not part of it). Not true: texts without a number are read as 0 without a message, and 1e6 as a whole number is 1 (C67_silent_violated)."
  },
  {
   "property": "C68",
   "status": "proved",
   "theorems": [
    "Verif.C68_read_back"
   ],
   "note": "loadConfig on the file of any description gives its meaning; ConfigSpec.lean is the specification. The XML text itself (tinyxml2) is not modelled: the file is a tree of elements."
  },
  {
   "property": "C69",
   "status": "proved",
   "theorems": [
    "Verif.C69_irrelevant"
   ],
   "note": "For all pairs of trees, also malformed ones (the outcome, with the kind of failure, is the same)."
  },
  {
   "property": "C70",
   "status": "partial",
   "theorems": [
    "Verif.C70_missing_reported",
    "Verif.C70_no_fault_partial",
    "Verif.C70_empty_violated",
    "Verif.C70_root_violated",
    "Verif.C70_beam_name_violated",
    "Verif.C70_long_beam_name_violated",
    "Verif.C70_beam_name_partial",
    "Verif.C70_path_violated",
    "Verif.C70_truth_value",
    "Verif.C70_truth_violated"
   ],
   "note": "Proved: when a file is accepted all required settings of sections are there; without empty settings, wrong outermost element and numbers out of range the result is a configuration or an end with a message. Not true otherwise: empty settings, another outermost element, a beam without a name or with a long one, an empty result path lead to undefined behaviour; truth values other than true are silently false (C70_*_violated)."
  },
  {
   "property": "C71",
   "status": "partial",
   "theorems": [
    "Verif.C71_documented_partial",
    "Verif.C71_macros_violated",
    "Verif.C71_mode_violated",
    "Verif.C71_bunches_violated",
    "Verif.C71_agree_partial"
   ],
   "note": "For every file with the documented layout the tools and the simulator agree on all settings of SameSettings. Missing: number of macroparticles in debug mode (C71_macros_violated), numeric truth values (C71_mode_violated), number of bunches with an exponent (C71_bunches_violated)."
  },
  {
   "property": "C72",
   "status": "partial",
   "theorems": [
    "Verif.C72_where",
    "Verif.C72_same_directory_partial",
    "Verif.C72_directory_violated",
    "Verif.C72_absolute_violated"
   ],
   "note": "C72_where says for all paths where the tools look. Same directory if the file is in the current directory or the result path is absolute; otherwise C72_directory_violated and C72_absolute_violated. Symbolic links are left out."
  },
  {
   "property": "C73",
   "status": "partial",
   "theorems": [
    "Verif.C73_frame_partial",
    "Verif.C73_start_violated",
    "Verif.C73_inverse",
    "Verif.C73_row_partial",
    "Verif.C73_row_violated",
    "Verif.C73_last_row_violated",
    "Verif.C73_radius_partial"
   ],
   "note": "Frames from time zero, inner half of the grid, and inverse laws hold. Other start times (C73_start_violated), the outer half (C73_row_violated) and the last row (C73_last_row_violated) are wrong in the code."
  },
  {
   "property": "C74",
   "status": "proved",
   "theorems": [
    "Verif.C74_current_safe"
   ],
   "note": ""
  },
  {
   "property": "C75",
   "status": "proved",
   "theorems": [
    "Verif.C75_planar_cycle",
    "Verif.C75_planar_run"
   ],
   "note": ""
  },
  {
   "property": "C76",
   "status": "partial",
   "theorems": [
    "Verif.C76_azimuthal_violated",
    "Verif.C76_any_cycle_partial",
    "Verif.C76_only_fault_partial",
    "Verif.C76_cycle_partial",
    "Verif.C76_run_safe_partial",
    "Verif.C76_simulation_partial"
   ],
   "note": "Without azimuthal motion every simulation goes on without a fault, whatever the schedules (C76_run_safe_partial, C76_simulation_partial). With any azimuthal motion a cycle faults if and only if it starts with a live macroparticle in the last half cell before the outer wall (C76_only_fault_partial), and the return to the half plane can bring one there: C76_azimuthal_violated gives a simulation that faults in its second cycle. So the unrestricted claim is false."
  },
  {
   "property": "C77",
   "status": "partial",
   "theorems": [
    "Verif.C77_interpolation_violated",
    "Verif.C77_only_nodes_set",
    "Verif.C77_probe_partial",
    "Verif.C77_column_violated"
   ],
   "note": "Exactly the nodes of the staggered grid and the currents are ever set (C77_only_nodes_set); probes whose window has only nodes write set values (C77_probe_partial), and so does the interpolation inside its region (C76). The claim is false for a column probe of E_r as configured (C77_column_violated) and for the interpolation in the last half cell (C77_interpolation_violated)."
  },
  {
   "property": "C78",
   "status": "partial",
   "theorems": [
    "Verif.C78_shipped_partial",
    "Verif.C78_planar_partial",
    "Verif.C78_single_bunch_partial",
    "Verif.C78_any_plasma_partial",
    "Verif.C78_shipped_violated"
   ],
   "note": "Proved: with a usable beam and a plasma without azimuthal motion the program can go wrong exactly in the clean-up of bunches (two bunches and the first one past its time); with one bunch it never does; with any motion of the plasma the only other fault is a live macroparticle in the last half cell before the wall; the same for the shipped configuration with its own plasma. Violated by the shipped configuration from iteration 101001 on. Missing: the property itself, which the code does not have for trains of bunches."
  },
  {
   "property": "C79",
   "status": "partial",
   "theorems": [
    "Verif.C79_cold_partial",
    "Verif.C79_plasma_partial",
    "Verif.C79_charge",
    "Verif.C79_shipped"
   ],
   "note": "Proved for species with temperatures from 0.1 to 2500 eV for which the draw zero gives no negative energy (shown for the temperatures of the shipped configuration); the total charge for all species. With species below 0.1 eV the loading goes wrong for one draw and is right for all others (C79_cold_partial, C60_table_end_violated). Missing because false of the code: at high temperatures speeds exceed that of light (C54_speed_violated) and energies are negative (C60_negative_energy_violated). The rejection loop of the sampler ends only with probability one (see C92)."
  },
  {
   "property": "C80",
   "status": "partial",
   "theorems": [
    "Verif.C80_boris_partial",
    "Verif.C80_adaptive_violated",
    "Verif.C80_vay_perp_partial",
    "Verif.C80_vay_violated"
   ],
   "note": "Proved: the Boris pushers are undone by the opposite step for all inputs (if the adaptive one decides alike both ways); the Vay pusher when velocity and electric field are across the magnetic field. Violated: the adaptive pusher that decides differently, and the Vay pusher, whose momentum along the field grows in every step."
  },
  {
   "property": "C81",
   "status": "proved",
   "theorems": [
    "Verif.C81_weight",
    "Verif.C81_charge",
    "Verif.C81_mirror",
    "Verif.C81_time"
   ],
   "note": "All four symmetries for all pushers and all inputs, including those with undefined result."
  },
  {
   "property": "C82",
   "status": "partial",
   "theorems": [
    "Verif.C82_result_partial",
    "Verif.C82_violated",
    "Verif.C82_memory_violated"
   ],
   "note": "Proved: on arrays of the passed sizes no fault and the same result in every interleaving, given in full. Violated: it is no average, and on the arrays of the program it touches memory outside."
  },
  {
   "property": "C83",
   "status": "partial",
   "theorems": [
    "Verif.C83_run",
    "Verif.C83_stack_violated",
    "Verif.C83_place_violated",
    "Verif.C83_read_partial",
    "Verif.C83_first_frame_violated",
    "Verif.C83_default_violated",
    "Verif.C83_end_violated"
   ],
   "note": "Proved: the contents of the file after every run (if a frame fits on the stack) and all requests for what is there, ranges with a last frame other than 0. Violated: large grids, place of the file, ranges that end with frame 0 or without end, checks at the end. The cache of the reader is C87; the HDF5 library is not modelled."
  },
  {
   "property": "C84",
   "status": "partial",
   "theorems": [
    "Verif.C84_files_partial",
    "Verif.C84_rerun_violated",
    "Verif.C84_path_violated",
    "Verif.C84_place_violated"
   ],
   "note": "Proved: contents of all files after every run, with what was there before in front, for result paths below 80 bytes. Violated: second run in the same directory, long paths, place of the files."
  },
  {
   "property": "C85",
   "status": "partial",
   "theorems": [
    "Verif.C85_beam",
    "Verif.C85_particles",
    "Verif.C85_steps_partial",
    "Verif.C85_frequency_partial",
    "Verif.C85_debye_violated",
    "Verif.C85_message_violated",
    "Verif.C85_steps_violated",
    "Verif.C85_name_violated",
    "Verif.C85_colours"
   ],
   "note": "Proved: beam, colour limits (C85_colours), particles, plasma frequency (names understood alike), number of steps (current time equal to start time). Violated: Debye length, number of steps otherwise, names, message. Rounding of the printed digits is not modelled."
  },
  {
   "property": "C86",
   "status": "partial",
   "theorems": [
    "Verif.C86_right_partial",
    "Verif.C86_complete_partial",
    "Verif.C86_alias_violated",
    "Verif.C86_rerun_violated",
    "Verif.C86_growing_violated"
   ],
   "note": "Proved for runs that only go on and callers that do not write (right), and for files that have not changed since the reader was made (complete). Violated: callers that write, repeated runs, runs in progress."
  },
  {
   "property": "C87",
   "status": "partial",
   "theorems": [
    "Verif.C87_transparent_partial",
    "Verif.C87_default_violated",
    "Verif.C87_transposed_violated"
   ],
   "note": "Proved for readers that were given the shape of the data. Violated: default shape, shape the wrong way round."
  },
  {
   "property": "C88",
   "status": "partial",
   "theorems": [
    "Verif.C88_cycle_partial",
    "Verif.C88_plasma",
    "Verif.C88_run_partial",
    "Verif.C88_program",
    "Verif.C88_goes_on_partial",
    "Verif.C88_adaptive_violated"
   ],
   "note": "Proved for the three pushers other than the adaptive one, for real numbers instead of doubles: the order in which doubles are summed is fixed by the code, as the deposition is sequential. Violated: adaptive pusher. Runs are shown to go on without end for plasmas without azimuthal motion only."
  },
  {
   "property": "C89",
   "status": "partial",
   "theorems": [
    "Verif.C89_neutral_start",
    "Verif.C89_gauss_start",
    "Verif.C89_closed_run_partial",
    "Verif.C89_shipped",
    "Verif.C89_numbers_violated",
    "Verif.C89_injection_violated",
    "Verif.C89_shipped_injection_violated"
   ],
   "note": "Start: proved for all plasmas of that kind, and for the shipped settings. From then on: proved without beam and absorbing layer for runs in which the macroparticles make moves of the kind that C06 covers. Violated for other numbers of macroparticles and by the injection of the beam."
  },
  {
   "property": "C90",
   "status": "proved",
   "theorems": [
    "Verif.C90_cycle",
    "Verif.C90_goes_on",
    "Verif.C90_run",
    "Verif.C90_reachable",
    "Verif.C90_coulomb_violated"
   ],
   "note": "For a run without beam, with every pusher and time step. The same theorem shows that a charged plasma at rest makes no field: C90_coulomb_violated."
  },
  {
   "property": "C91",
   "status": "proved",
   "theorems": [
    "Verif.C91_law",
    "Verif.C91_ends",
    "Verif.C91_rounds",
    "Verif.C91_weight",
    "Verif.C91_uniform_ends"
   ],
   "note": "All temperatures of the relativistic branch up to 3000. C91_weight and C91_uniform_ends are for temperatures for which the draw zero gives no energy below zero (see C60); C92_ends has no such condition."
  },
  {
   "property": "C92",
   "status": "partial",
   "theorems": [
    "Verif.C92_classic_law",
    "Verif.C92_guess",
    "Verif.C92_ends",
    "Verif.C92_law_partial",
    "Verif.C92_temperature_violated"
   ],
   "note": "The law holds within 0.015 (largest difference of the two distribution functions) for all temperatures from 0.1 to 3000 (C92_law_partial), and within 0.002 of Maxwell's distribution for all temperatures below 0.1 (C92_classic_law); missing: temperatures above 3000. The temperature of the plasma is violated: C92_temperature_violated."
  },
  {
   "property": "C93",
   "status": "partial",
   "theorems": [
    "Verif.C93_cold_violated",
    "Verif.C93_cool_violated",
    "Verif.C93_frozen_violated",
    "Verif.C93_no_drift",
    "Verif.C93_kinetic",
    "Verif.C93_isotropy_violated",
    "Verif.C93_hot_violated"
   ],
   "note": "No drift: proved. Directions and mean energy: violated. C93_kinetic gives the share of the sampled energy that a macroparticle gets. The mean energy is violated at all temperatures up to 1 eV and from 20 to 300 eV; missing: the mean energy at 1 to 20 eV and above 300 eV."
  },
  {
   "property": "C94",
   "status": "partial",
   "theorems": [
    "Verif.C94_exists_partial",
    "Verif.C94_cycle_partial",
    "Verif.C94_run_partial",
    "Verif.C94_order",
    "Verif.C94_division"
   ],
   "note": "Cycles and runs with any other pusher than the adaptive one, whose branch reads an unset variable (C88_adaptive_violated). Exact arithmetic: in doubles the sums differ by rounding."
  },
  {
   "property": "C95",
   "status": "partial",
   "theorems": [
    "Verif.C95_cycle_partial",
    "Verif.C95_determined_partial",
    "Verif.C95_run_partial",
    "Verif.C95_start",
    "Verif.C95_vay_violated"
   ],
   "note": "All factors for the Boris pushers, signs and reflection for the pusher of Vay too; other factors with the pusher of Vay: violated. C95_determined_partial leaves out the adaptive pusher."
  },
  {
   "property": "C96",
   "status": "proved",
   "theorems": [
    "Verif.C96_convergence",
    "Verif.C96_from_start"
   ],
   "note": "Exact arithmetic. C96_convergence allows errors of the start, of the currents and of the medium; C96_from_start is the program's own start from zero fields. The tables of the medium are read at the corner of the cell while the components live in the middle of its sides, so a medium that varies enters with first order through the error of the table."
  },
  {
   "property": "C97",
   "status": "partial",
   "theorems": [
    "Verif.C97_density_partial",
    "Verif.C97_limit_partial",
    "Verif.C97_density_violated"
   ],
   "note": "C97_density_partial gives the charge in every cylinder with an explicit error for every number of macroparticles, C97_limit_partial the limit; the limit is too large by R/(R-dr) * Z/(Z-dz), because the number of real particles is that of the whole chamber while macroparticles are placed half a cell off the walls and the axis: C97_density_violated."
  },
  {
   "property": "C98",
   "status": "partial",
   "theorems": [
    "Verif.C98_range",
    "Verif.C98_plain_shown",
    "Verif.C98_plain_partial",
    "Verif.C98_hdf5",
    "Verif.C98_tail_violated",
    "Verif.C98_head_violated",
    "Verif.C98_step_violated",
    "Verif.C98_interval_violated",
    "Verif.C98_run_partial"
   ],
   "note": "C98_hdf5 is the full claim for HDF5 results, given readable frames. For text files C98_plain_shown says exactly which frames are shown; that is the claim only for step one and whole data sets (C98_plain_partial, C98_run_partial); C98_range says which frame numbers are asked for. Frame numbers as whole numbers (builtin round). Figures and encoder are not modelled."
  },
  {
   "property": "C99",
   "status": "partial",
   "theorems": [
    "Verif.C99_converter_violated"
   ],
   "note": "Refuted for every configuration, C99_converter_violated; no part of the claim holds. Only the reading of attributes is modelled, what comes after is never reached."
  },
  {
   "property": "C100",
   "status": "partial",
   "theorems": [
    "Verif.C100_axes_partial",
    "Verif.C100_end_violated",
    "Verif.C100_digits_violated",
    "Verif.C100_thin_violated"
   ],
   "note": "C100_axes_partial: for all chambers and grids the ticks are evenly spaced, labels increase and are the coordinate up to one cell and half a percent. Exact reading fails (C100_end_violated, C100_digits_violated), and thin chambers have no radial scale (C100_thin_violated). The place of an element of an image is that of imshow, taken from its documentation; half-cell offsets of the field components are left out."
  },
  {
   "property": "C101",
   "status": "partial",
   "theorems": [
    "Verif.C101_ieee_partial",
    "Verif.C101_wall_violated",
    "Verif.C101_history_partial"
   ],
   "note": "C101_history_partial: for every history, momentum and rounding within the bound, positions stay inside the chamber, cells are cells of the grid and change by one at most. C101_ieee_partial: the same for the program evaluated operation by operation in binary64. Required: light passes at most three quarters of a cell in a step, grids of 3 to 2^31 nodes, no overflow, relativistic pushers. The row after the last of the arrays with a row less is read within a thousandth of a cell of the wall (C101_wall_violated) and beyond it."
  },
  {
   "property": "C102",
   "status": "proved",
   "theorems": [
    "Verif.C102_deposits",
    "Verif.C102_ieee",
    "Verif.C102_ieee_free",
    "Verif.C102_growth",
    "Verif.C102_free"
   ],
   "note": "C102_growth: any roundings within the bound, any currents read by the machine. C102_free: no currents, energy of the exact fields at the start. C102_ieee, C102_ieee_free: the program evaluated operation by operation in binary64. C102_deposits: with the currents summed up in binary64 in any order. Required: step below the limit, number of steps at most 2^40 times the root of the distance, sizes, step, permittivity and conductivity between 2^-60 and 2^60 (conductivity from 0), no overflow of fields (rounding has no largest number). The deposited values are the same in both runs: the growth of the rounding errors of the plasma, which is chaotic, is not bounded."
  },
  {
   "property": "C103",
   "status": "proved",
   "theorems": [
    "Verif.C103_waves",
    "Verif.C103_cycle",
    "Verif.C103_run",
    "Verif.C103_simulation"
   ],
   "note": "C103_waves: fields with given currents, one cell a step. C103_cycle: one cycle with macroparticles, four cells. C103_run: any number of cycles with any injection that is the same inside. C103_simulation: from the set-up of the arrays, for any two tables of conductivity that are the same inside. Both runs complete their cycles (a completed cycle is one without a fault). The non-relativistic and the adaptive pusher are left out: they do not keep macroparticles below the speed of light."
  },
  {
   "property": "C104",
   "status": "partial",
   "theorems": [
    "Verif.C104_fields_violated",
    "Verif.C104_current_violated",
    "Verif.C104_solver_violated",
    "Verif.C104_push",
    "Verif.C104_run_partial",
    "Verif.C104_growth_violated",
    "Verif.C104_objects_partial"
   ],
   "note": "Holds for species, bunches, charge densities and solver objects (C104_objects_partial: every history of creations and deletions) and for pushes (C104_push: every schedule). Fails for fields (C104_fields_violated), currents (C104_current_violated), solutions of Poisson's equation (C104_solver_violated) and for the run: C104_run_partial gives exactly what each cycle leaves behind and that no cycle has undefined behaviour by a wrong delete, C104_growth_violated that no bound holds. The loop that removes bunches is simplified: what it does to the vectors is C53."
  },
  {
   "property": "C105",
   "status": "partial",
   "theorems": [
    "Verif.C105_fields_partial",
    "Verif.C105_particles_partial",
    "Verif.C105_output_partial",
    "Verif.C105_planar_partial",
    "Verif.C105_time_violated"
   ],
   "note": "Proved for every run from time 0: frames, columns and dots of the nine arrays (C105_fields_partial), macroparticles of the plasma (C105_particles_partial), runs with output are exactly the runs without when the probes are usable and there are at most 10^k iterations for paths with room for k digits (C105_output_partial), frames of E_phi, H_r, H_z of planar runs are zero (C105_planar_partial). The time of a frame is wrong by one step (C105_time_violated). Missing: densities, temperatures and bunches in the joined model, the configurations which the writer or reader treats wrongly (C33, C62, C66), and rounding in the simulation itself."
  },
  {
   "property": "C106",
   "status": "partial",
   "theorems": [
    "Verif.C106_buffers",
    "Verif.C106_table",
    "Verif.C106_numbers",
    "Verif.C106_columns_partial",
    "Verif.C106_columns_violated",
    "Verif.C106_long_run_violated",
    "Verif.C106_saved_violated"
   ],
   "note": "C106_table: the text is exactly that of the lines of the saved frames, in order, for every list of probes that could be made and up to 2^31 iterations from time 0; C106_buffers: no overflow; C106_numbers: the numbers agree with the writer. C106_columns_partial: lines can be split at blanks up to 10^7 iterations for names shorter than 25 characters and places shorter than 21. Fails otherwise (C106_columns_violated, C106_long_run_violated), and lines are printed for frames that are not written (C106_saved_violated). The texts of times and durations are parameters; the buffer of the duration is C43_buffer_violated."
  },
  {
   "property": "C107",
   "status": "partial",
   "theorems": [
    "Verif.C107_verdict_partial",
    "Verif.C107_missing",
    "Verif.C107_exit_violated",
    "Verif.C107_small_violated",
    "Verif.C107_nan_violated"
   ],
   "note": "C107_verdict_partial: if in each component the same entries are NaN, the test passes exactly when all numbers are near those of the reference; C107_missing: never when a file is missing. Fails for NaNs in other places (C107_nan_violated); the exit status is 0 also when the test failed (C107_exit_violated); small components are not tested (C107_small_violated, a consequence of the absolute tolerance of one)."
  },
  {
   "property": "C108",
   "status": "partial",
   "theorems": [
    "Verif.C108_history_partial",
    "Verif.C108_speed_partial",
    "Verif.C108_ieee_partial",
    "Verif.C108_fast_violated",
    "Verif.C108_ieee_speed_partial"
   ],
   "note": "C108_history_partial, C108_speed_partial for every execution whose errors are bounded, C108_ieee_partial, C108_ieee_speed_partial for IEEE 754 without overflow. Limited to the relativistic pusher of Boris and to (N + 1) G\u00b2 \u2264 2^34, where N is the number of cycles and G the momentum in units of the speed of light that the forces could give; C108_fast_violated shows that a limit is needed. The pusher of Vay is missing."
  },
  {
   "property": "C109",
   "status": "partial",
   "theorems": [
    "Verif.C109_amplitude_partial",
    "Verif.C109_H_violated",
    "Verif.C109_frequency_partial",
    "Verif.C109_frequency_violated",
    "Verif.C109_mean_violated",
    "Verif.C109_range_partial",
    "Verif.C109_range_violated",
    "Verif.C109_hidden_violated"
   ],
   "note": "C109_amplitude_partial, C109_frequency_partial, C109_range_partial. The frequencies are right up to the part 3 / (N - 3), the amplitudes for the components other than H_phi, and the range if all probes have one schedule; C109_frequency_violated, C109_mean_violated, C109_H_violated, C109_range_violated, C109_hidden_violated."
  },
  {
   "property": "C110",
   "status": "partial",
   "theorems": [
    "Verif.C110_histogram_partial",
    "Verif.C110_slowest_violated",
    "Verif.C110_directed_violated",
    "Verif.C110_relative_partial"
   ],
   "note": "C110_histogram_partial, C110_relative_partial; violated for the slowest macroparticles, C110_slowest_violated, and for the directed velocity, C110_directed_violated."
  },
  {
   "property": "C111",
   "status": "proved",
   "theorems": [
    "Verif.C111_divergence",
    "Verif.C111_gauss",
    "Verif.C111_ieee_divergence",
    "Verif.C111_ieee_gauss"
   ],
   "note": "C111_divergence, C111_gauss for any rounding within the bound; C111_ieee_divergence, C111_ieee_gauss for IEEE arithmetic in the order of the source. The values handed to the deposit functions are exact, and the bounds contain the largest field and current of the run."
  },
  {
   "property": "C112",
   "status": "partial",
   "theorems": [
    "Verif.C112_boris_error",
    "Verif.C112_boris_converges_partial",
    "Verif.C112_threshold_violated",
    "Verif.C112_adaptive_violated",
    "Verif.C112_vay_violated"
   ],
   "note": "C112_boris_error: error after N steps with explicit constants for every Boris pusher in whichever branch (classical or relativistic) it takes, including the floor of the cut at 1e-15 m/s. C112_boris_converges_partial: second order for particles above the cut. Missing: the cut (C112_threshold_violated), the adaptive pusher near its uninitialised flag (C112_adaptive_violated) and the Vay pusher (C112_vay_violated) do not have the property. Positions and the change of the cylindrical basis are not part of it."
  },
  {
   "property": "C113",
   "status": "partial",
   "theorems": [
    "Verif.C113_path_partial",
    "Verif.C113_start_violated",
    "Verif.C113_azimuth_violated",
    "Verif.C113_sampled_partial"
   ],
   "note": "C113_path_partial: second order for macroparticles that move in the r-z half plane, with the Boris pushers and velocities above the cut at 1e-15 m/s, if the place at the start is that of half a step later. C113_sampled_partial: the same from the values at the nodes of the grid, with first order in the size of the cells. Missing: motion around the axis (C113_azimuth_violated), a start at one time (C113_start_violated), the Vay and adaptive pushers and the cut (C112)."
  },
  {
   "property": "C114",
   "status": "partial",
   "theorems": [
    "Verif.C114_plain_reader",
    "Verif.C114_plain_pieces",
    "Verif.C114_dot_partial",
    "Verif.C114_time_violated",
    "Verif.C114_window_partial",
    "Verif.C114_corner_violated",
    "Verif.C114_piece_violated",
    "Verif.C114_line_violated",
    "Verif.C114_hidden_violated",
    "Verif.C114_two_windows_violated",
    "Verif.C114_mixed_violated"
   ],
   "note": "C114_dot_partial: with a probe of the point for each component, all with one schedule, the curves show the values of the frames of the range, in order, within one and a half intervals of their times. C114_window_partial: the same for windows, if the range is a whole number of files and, for the field, the window begins at the corner of the grid. Missing, because violated: exact times, other windows and ranges, columns and rows, several windows, mixed probes (the _violated theorems). C114_plain_reader and C114_plain_pieces: the reader of the plain files meets the hypotheses."
  },
  {
   "property": "C115",
   "status": "proved",
   "theorems": [
    "Verif.C115_waves",
    "Verif.C115_cycle",
    "Verif.C115_run",
    "Verif.C115_simulation",
    "Verif.C115_longer"
   ],
   "note": "C115_waves: fields with given currents, one cell a step. C115_cycle: one cycle with macroparticles, four cells. C115_run: any number of cycles with any injection that is the same in the windows. C115_simulation: from the set-up of the arrays. C115_longer: the same macroparticles in a longer chamber. Both runs complete their cycles. As in C103 the non-relativistic and the adaptive pusher are left out: they do not keep macroparticles below the speed of light."
  },
  {
   "property": "C116",
   "status": "partial",
   "theorems": [
    "Verif.C116_temperature_partial",
    "Verif.C116_density_partial",
    "Verif.C116_metres_violated",
    "Verif.C116_place_violated",
    "Verif.C116_end_violated",
    "Verif.C116_second_violated",
    "Verif.C116_longitudinal_partial",
    "Verif.C116_axis_violated",
    "Verif.C116_deleted_violated",
    "Verif.C116_map_partial",
    "Verif.C116_corner_violated",
    "Verif.C116_hidden_violated",
    "Verif.C116_again_violated",
    "Verif.C116_hdf5_violated"
   ],
   "note": "C116_map_partial, C116_temperature_partial, C116_density_partial, C116_longitudinal_partial: every data set saved in exactly the window, or the first not and all in windows from the corner of the grid on; plain text results; for profiles windows from the first column or row on, and a place within one and a half cells of the asked one. The full statement is false, see the C116_..._violated theorems."
  },
  {
   "property": "C117",
   "status": "partial",
   "theorems": [
    "Verif.C117_cycle_partial",
    "Verif.C117_run_partial",
    "Verif.C117_simulation_partial",
    "Verif.C117_bunch_violated",
    "Verif.C117_waves_partial",
    "Verif.C117_walls",
    "Verif.C117_layers_violated"
   ],
   "note": "C117_simulation_partial, C117_run_partial, C117_cycle_partial: whole simulations with both relativistic pushers, for materials that do not change along the axis (they may along the radius), light no more than a cell per time step, and as long as bunches are a cell and a half away from the end walls. C117_waves_partial: the field solver alone. C117_walls: its condition on the end walls holds in every state of a run. The full statement is false, see C117_layers_violated and C117_bunch_violated."
  },
  {
   "property": "C118",
   "status": "proved",
   "theorems": [
    "Verif.C118_reversed"
   ],
   "note": "C118_reversed."
  },
  {
   "property": "C119",
   "status": "partial",
   "theorems": [
    "Verif.C119_line_partial",
    "Verif.C119_window_partial",
    "Verif.C119_corner_violated",
    "Verif.C119_piece_violated",
    "Verif.C119_column_violated",
    "Verif.C119_schedule_violated",
    "Verif.C119_scale_violated"
   ],
   "note": "C119_line_partial: every component has a probe of the line with one schedule; C119_window_partial: rows in windows from the axis on, a range of times of whole files. The full statement is false, see the C119_..._violated theorems. The reader of the plain files meets the hypotheses by C114_plain_reader and C114_plain_pieces."
  },
  {
   "property": "C120",
   "status": "partial",
   "theorems": [
    "Verif.C120_plain_reads",
    "Verif.C120_plain_pieces",
    "Verif.C120_exact_partial",
    "Verif.C120_bigger_partial",
    "Verif.C120_time_violated",
    "Verif.C120_corner_violated",
    "Verif.C120_piece_violated",
    "Verif.C120_two_windows_violated"
   ],
   "note": "C120_exact_partial: one probe of exactly the window; C120_bigger_partial: one bigger window from the corner of the grid on, a range of times of whole files. The full statement is false, see the C120_..._violated theorems. The notebook for two simulations is not valid Python and is not modelled. C120_plain_reads and C120_plain_pieces: the reader of the plain files meets the hypotheses."
  },
  {
   "property": "C121",
   "status": "partial",
   "theorems": [
    "Verif.C121_dot_partial",
    "Verif.C121_oscillation",
    "Verif.C121_constant",
    "Verif.C121_edge_violated",
    "Verif.C121_shared_violated",
    "Verif.C121_scale_violated"
   ],
   "note": "C121_dot_partial: a probe of the point for each component. C121_oscillation and C121_constant say what the amplitudes shown are. The full statement is false, see the C121_..._violated theorems. scipy.signal.stft is modelled by the formulas of its documentation; how pcolormesh draws the cells is not modelled."
  },
  {
   "property": "C122",
   "status": "partial",
   "theorems": [
    "Verif.C122_alike_partial",
    "Verif.C122_interval_violated",
    "Verif.C122_place_violated",
    "Verif.C122_four_violated",
    "Verif.C122_hidden_violated",
    "Verif.C122_hdf5_violated",
    "Verif.C122_plain_frames"
   ],
   "note": "C122_alike_partial: simulations with the step, interval of dumps and cell of the first one, the cell saved in any way. The full statement is false, see the C122_..._violated theorems. C122_plain_frames: the reader of plain files gives the windows; points, columns and rows are C114_plain_reader. Values that are not numbers are not modelled here."
  },
  {
   "property": "C123",
   "status": "partial",
   "theorems": [
    "Verif.C123_sets_partial",
    "Verif.C123_unknown",
    "Verif.C123_last_violated",
    "Verif.C123_equals_violated",
    "Verif.C123_spaces_violated",
    "Verif.C123_quoted_violated",
    "Verif.C123_marks_violated",
    "Verif.C123_bare_violated"
   ],
   "note": "C123_sets_partial: all notebooks and lists of arguments, for lines that are not the last ones of cells and values without the characters | & \\ \" = and without repeated spaces. C123_unknown: unknown names are ignored, as the config_path of README.md. The full statement is false, see the C123_..._violated theorems. Conversion to Python and its execution are not modelled."
  }
 ]
}