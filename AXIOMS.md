# Axioms of the theorems of MANIFEST.json

Output of `#print axioms` for each theorem, grouped.

## none

C43_boundary_violated

## `propext`

C34_last_frame_unreachable_violated, C43_sum, C71_mode_violated, C83_place_violated, C84_place_violated

## `Quot.sound`, `propext`

C45_success, C45_only_adds, C45_trailing_slash_violated, C66_same_directory, C123_equals_violated, C123_spaces_violated, C123_bare_violated

## `Classical.choice`, `Quot.sound`, `propext`

C01_charge_conserved, C02_deposit_in_bounds_iff, C02_deposit_local_and_signed, C03_deposit_order_independent, C03_increments_any_interleaving, C03_species_union, C03_dead_contribute_nothing, C04_azimuthal_current_total, C04_axis_faults, C05_in_cell_continuity, C06_many_particles_continuity_partial, C06_cross_cell_continuity_partial, C06_corner_violated, C07_axial_continuity, C07_radial_continuity_partial, C07_radial_crossing_violated, C07_near_axis_violated, C08_divergence_constant, C08_divergence_free_run, C09_walls_run, C09_walls_update, C10_gauss_preserved, C11_energy_balance, C11_energy_run, C12_updates_schedule_independent, C12_step_schedule_independent, C13_setup_safe, C13_run_safe, C14_time_centred, C14_time_centred_run, C15_superposition, C16_gather_reads_valid, C16_gather_outside_faults, C17_get_field_partial, C17_get_field_violated, C17_uniform_field_partial, C17_linear, C17_uniform_field_violated, C17_smooth_partial, C18_boris_no_work, C18_vay_perp_partial, C18_vay_violated, C19_push_subluminal, C19_superluminal_stops, C19_adaptive_violated, C20_free_streaming, C21_lorentz_factor, C21_gamma_monotone, C22_reflection_confines, C22_cycle_partial, C22_confined_forever_partial, C22_azimuthal_violated, C23_rotation_keeps_distance_and_speed, C23_components_iff, C23_components_violated, C24_absorbed_inert, C24_absorbed_iff, C25_total_charge, C26_position, C26_left_boundary_violated, C26_code_draws, C27_total, C27_injective, C27_equidistributed, C27_base_one_diverges, C28_total_charge_partial, C28_near_axis_violated, C29_effect, C29_at_most_once, C29_exactly_once_partial, C29_leftover_violated, C29_off_step_violated, C29_zero_duration_fails, C30_one_per_step, C30_schedule, C30_schedule_usual, C31_steps, C31_nonpositive_step_diverges, C32_probe_files, C32_record_from_zero, C32_six_digits, C32_window_outside_fails, C33_read_back_partial, C33_precision, C33_incomplete_violated, C33_rerun_violated, C34_range_partial, C34_same_file_violated, C34_frame_range_partial, C34_last_frame_garbage_violated, C34_crossing_violated, C34_dot_origin_violated, C34_probe_range_partial, C35_transparent_partial, C35_never_wrong_partial, C35_mpframe_violated, C35_dot_violated, C35_col_second_read_violated, C35_stale_violated, C36_accepted_partial, C36_axial_step_violated, C36_courant_violated, C36_uninitialised_violated, C36_negative_violated, C36_warning, C36_warning_violated, C36_accepted_step_unstable_violated, C37_density_total_partial, C37_density_nonneg_partial, C37_memory_violated, C37_ions_violated, C37_dead_violated, C37_wall_violated, C38_classic_partial, C38_memory_violated, C38_wall_violated, C38_weighted_partial, C39_average_partial, C39_monotone_partial, C39_last_column_violated, C39_memory_violated, C40_solves, C40_dominant, C40_singular_comment_violated, C41_fft_constant_error, C41_fft_code_constant, C41_fft_is_dft, C41_other_lengths_fault, C41_real_roundtrip_partial, C41_real_roundtrip_violated, C41_sine_transform, C41_sine_roundtrip, C41_sine_other_lengths_fault, C41_cosine_violated, C41_cosine_partial, C42_poisson_partial, C42_gauss, C42_walls_violated, C42_other_grids_fault, C42_neumann_violated, C43_range_partial, C43_buffer_violated, C44_dispatch, C44_cases, C45_complete, C46_zero_outside, C46_bounds_partial, C46_defined, C46_monotone_left, C46_monotone_right, C46_monotone_outer, C46_overshoot_violated, C46_thin_layer_violated, C46_corner_hole_violated, C47_currents_per_step, C47_history_independent, C48_outputs_partial, C48_violated, C48_legacy_violated, C49_cycle_gauss, C49_run_gauss, C49_closed_system, C50_push_schedule_independent, C50_move_schedule_independent, C50_rotation_schedule_independent, C50_adaptive_violated, C51_energy_bounded, C51_fields_bounded, C52_free_flight_partial, C52_free_flight_violated, C53_cleanup_violated, C53_live_bunch_removed_violated, C53_no_old_bunch_partial, C54_speed_partial, C54_speed_violated, C55_volume_weighting, C55_azimuthal_volume_weighting, C56_local, C56_node_value, C56_nonneg, C57_boris_lorentz, C57_electric_kick, C57_vay_violated, C58_push_deterministic_partial, C58_adaptive_violated, C59_few_digits_partial, C59_index_partial, C59_run_length_partial, C59_run_length_violated, C59_probe_twice_violated, C59_probe_missed_violated, C59_stall_violated, C60_range_partial, C60_classic_partial, C60_table_end_violated, C60_monotone_partial, C60_monotone_top_violated, C60_monotone_bottom_violated, C60_relativistic_partial, C60_negative_energy_violated, C60_scaling_violated, C61_directory, C61_independent_partial, C61_files_partial, C61_no_fault, C61_schedule_violated, C62_construct, C62_typical, C62_component_violated, C62_late_violated, C63_files_partial, C63_end_violated, C63_dead_violated, C63_negative_violated, C64_components, C64_missing_violated, C64_name_violated, C65_read_back_partial, C65_truncated_violated, C65_phi_violated, C66_frame_partial, C66_col_partial, C66_dot_partial, C66_dot_violated, C66_row_violated, C67_integer, C67_integer_text, C67_decimal, C67_silent_violated, C68_read_back, C69_irrelevant, C70_missing_reported, C70_no_fault_partial, C70_empty_violated, C70_root_violated, C70_beam_name_violated, C70_long_beam_name_violated, C70_beam_name_partial, C70_path_violated, C70_truth_value, C70_truth_violated, C71_documented_partial, C71_macros_violated, C71_bunches_violated, C71_agree_partial, C72_where, C72_same_directory_partial, C72_directory_violated, C72_absolute_violated, C73_frame_partial, C73_start_violated, C73_inverse, C73_row_partial, C73_row_violated, C73_last_row_violated, C73_radius_partial, C74_current_safe, C75_planar_cycle, C75_planar_run, C76_azimuthal_violated, C76_any_cycle_partial, C76_only_fault_partial, C76_cycle_partial, C76_run_safe_partial, C76_simulation_partial, C77_interpolation_violated, C77_only_nodes_set, C77_probe_partial, C77_column_violated, C78_shipped_partial, C78_planar_partial, C78_single_bunch_partial, C78_any_plasma_partial, C78_shipped_violated, C79_cold_partial, C79_plasma_partial, C79_charge, C79_shipped, C80_boris_partial, C80_adaptive_violated, C80_vay_perp_partial, C80_vay_violated, C81_weight, C81_charge, C81_mirror, C81_time, C82_result_partial, C82_violated, C82_memory_violated, C83_run, C83_stack_violated, C83_read_partial, C83_first_frame_violated, C83_default_violated, C83_end_violated, C84_files_partial, C84_rerun_violated, C84_path_violated, C85_beam, C85_particles, C85_steps_partial, C85_frequency_partial, C85_debye_violated, C85_message_violated, C85_steps_violated, C85_name_violated, C85_colours, C86_right_partial, C86_complete_partial, C86_alias_violated, C86_rerun_violated, C86_growing_violated, C87_transparent_partial, C87_default_violated, C87_transposed_violated, C88_cycle_partial, C88_plasma, C88_run_partial, C88_program, C88_goes_on_partial, C88_adaptive_violated, C89_neutral_start, C89_gauss_start, C89_closed_run_partial, C89_shipped, C89_numbers_violated, C89_injection_violated, C89_shipped_injection_violated, C90_cycle, C90_goes_on, C90_run, C90_reachable, C90_coulomb_violated, C91_law, C91_ends, C91_rounds, C91_weight, C91_uniform_ends, C92_classic_law, C92_guess, C92_ends, C92_law_partial, C92_temperature_violated, C93_cold_violated, C93_cool_violated, C93_frozen_violated, C93_no_drift, C93_kinetic, C93_isotropy_violated, C93_hot_violated, C94_exists_partial, C94_cycle_partial, C94_run_partial, C94_order, C94_division, C95_cycle_partial, C95_determined_partial, C95_run_partial, C95_start, C95_vay_violated, C96_convergence, C96_from_start, C97_density_partial, C97_limit_partial, C97_density_violated, C98_range, C98_plain_shown, C98_plain_partial, C98_hdf5, C98_tail_violated, C98_head_violated, C98_step_violated, C98_interval_violated, C98_run_partial, C99_converter_violated, C100_axes_partial, C100_end_violated, C100_digits_violated, C100_thin_violated, C101_ieee_partial, C101_wall_violated, C101_history_partial, C102_deposits, C102_ieee, C102_ieee_free, C102_growth, C102_free, C103_waves, C103_cycle, C103_run, C103_simulation, C104_fields_violated, C104_current_violated, C104_solver_violated, C104_push, C104_run_partial, C104_growth_violated, C104_objects_partial, C105_fields_partial, C105_particles_partial, C105_output_partial, C105_planar_partial, C105_time_violated, C106_buffers, C106_table, C106_numbers, C106_columns_partial, C106_columns_violated, C106_long_run_violated, C106_saved_violated, C107_verdict_partial, C107_missing, C107_exit_violated, C107_small_violated, C107_nan_violated, C108_history_partial, C108_speed_partial, C108_ieee_partial, C108_fast_violated, C108_ieee_speed_partial, C109_amplitude_partial, C109_H_violated, C109_frequency_partial, C109_frequency_violated, C109_mean_violated, C109_range_partial, C109_range_violated, C109_hidden_violated, C110_histogram_partial, C110_slowest_violated, C110_directed_violated, C110_relative_partial, C111_divergence, C111_gauss, C111_ieee_divergence, C111_ieee_gauss, C112_boris_error, C112_boris_converges_partial, C112_threshold_violated, C112_adaptive_violated, C112_vay_violated, C113_path_partial, C113_start_violated, C113_azimuth_violated, C113_sampled_partial, C114_plain_reader, C114_plain_pieces, C114_dot_partial, C114_time_violated, C114_window_partial, C114_corner_violated, C114_piece_violated, C114_line_violated, C114_hidden_violated, C114_two_windows_violated, C114_mixed_violated, C115_waves, C115_cycle, C115_run, C115_simulation, C115_longer, C116_temperature_partial, C116_density_partial, C116_metres_violated, C116_place_violated, C116_end_violated, C116_second_violated, C116_longitudinal_partial, C116_axis_violated, C116_deleted_violated, C116_map_partial, C116_corner_violated, C116_hidden_violated, C116_again_violated, C116_hdf5_violated, C117_cycle_partial, C117_run_partial, C117_simulation_partial, C117_bunch_violated, C117_waves_partial, C117_walls, C117_layers_violated, C118_reversed, C119_line_partial, C119_window_partial, C119_corner_violated, C119_piece_violated, C119_column_violated, C119_schedule_violated, C119_scale_violated, C120_plain_reads, C120_plain_pieces, C120_exact_partial, C120_bigger_partial, C120_time_violated, C120_corner_violated, C120_piece_violated, C120_two_windows_violated, C121_dot_partial, C121_oscillation, C121_constant, C121_edge_violated, C121_shared_violated, C121_scale_violated, C122_alike_partial, C122_interval_violated, C122_place_violated, C122_four_violated, C122_hidden_violated, C122_hdf5_violated, C122_plain_frames, C123_sets_partial, C123_unknown, C123_last_violated, C123_quoted_violated, C123_marks_violated
