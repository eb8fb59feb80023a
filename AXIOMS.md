# Axioms each property theorem depends on

Output of `#print axioms` for every theorem named in MANIFEST.json, grouped. `propext`, `Quot.sound` and
`Classical.choice` are the standard axioms of Lean; nothing else occurs.

## propext, Classical.choice, Quot.sound

* C01: C01_partition
* C02: C02_intersects_iff_common_moment, C02_intersection_is_set_intersection, C02_contains, C02_order_total
* C03: C03_accepts_iff_ascending, C03_lookup_is_latest, C03_end_of_time, C03_period_lookup_sound, C03_period_lookup_complete
* C04: C04_clip_periods, C04_clip_dates, C04_plain, C04_create_lookup
* C05: C05_selects_overlapping, C05_disjoint_is_empty
* C06: C06_boundaries_partial, C06_partition
* C07: C07_calendar_stream_calendar, C07_stream_calendar_stream, C07_values, C07_same_type_unchanged
* C08: C08_volumes_round_trip, C08_cumulative_round_trip, C08_totals, C08_non_decreasing
* C09: C09_volume_inside, C09_total_conserved, C09_no_reporting_period, C09_none
* C10: C10_volume_is_rate_times_days, C10_rate_volume_rate, C10_resample_calendar, C10_resample_stream_partial, C10_stream_cancellation
* C11: C11_true_iff_all_true, C11_succeeds, C11_start_not_midnight_is_error
* C12: C12_calendar_partial, C12_stream_same_regularity, C12_mismatch_rejected, C12_zero_sum_is_nan
* C13: C13_cut_extend, C13_for_period, C13_split_at_date, C13_extend_chronological, C13_extend_gap_rejected, C13_merge_chronological, C13_merge_rejected, C13_rate_for_period, C13_rate_for_period_outside, C13_rate_extend
* C14: C14_round_trip, C14_same_unit, C14_unsupported, C14_physically_correct, C14_compose, C14_monotone, C14_list_round_trip
* C15: C15_time_vector, C15_order_independent, C15_errors, C15_periods
* C16: C16_fit, C16_unique, C16_exact_at_series_dates, C16_empty_is_error
* C17: C17_resolves, C17_unresolvable_rejected, C17_solution_unique, C17_order_independent
* C18: C18_unbalanced_rejected, C18_errors
* C19: C19_value_per_period, C19_meaning_unique, C19_missing_reference, C19_local, C19_subset, C19_subset_for_timestep, C19_last_timestep_is_error, C19_subset_for_period, C19_subset_beyond_is_error
* C20: C20_in_force, C20_misaligned, C20_variable_partial, C20_variable_unsorted
* C21: C21_accepted_is_fraction, C21_expression_partial, C21_by_date, C21_default_is_one, C21_zero_becomes_one
* C22: C22_masked, C22_unconditioned, C22_conditions_are_and, C22_nan_condition
* C23: C23_usage, C23_no_factor, C23_factor_one_not_finite, C23_factor_above_one_negative
* C24: C24_first_valid, C24_system
* C25: C25_exact, C25_total, C25_nonnegative, C25_sender, C25_flag, C25_unknown_receiver, C25_chain_not_forwarded, C25_setting
* C27: C27_search, C27_search_threshold, C27_search_misses_start, C27_lowest, C27_lowest_monotone, C27_highest, C27_highest_monotone, C27_maximize, C27_maximize_untested
* C28: C28_bounds, C28_start, C28_converges, C28_engages, C28_counter, C28_first_two
* C29: C29_zero_load, C29_nonnegative, C29_energy_balance, C29_flag, C29_overload_partial, C29_overload_missed, C29_false_alarm, C29_below_table, C29_elementwise
* C30: C30_valid_iff, C30_margin, C30_fuel, C30_gap, C30_no_missing, C30_evaluates, C30_stale_fuel, C30_fuel_defined, C30_production
* C31: C31_emissions, C31_one_fuel, C31_case_clash
* C32: C32_direct_partial, C32_repeated_name, C32_last_wins, C32_oil_partial
* C33: C33_get_node, C33_add_edge, C33_successors, C33_successor_order, C33_all_successors, C33_unknown, C33_predecessor, C33_no_predecessor, C33_several_predecessors, C33_sorted, C33_root, C33_breadth_first, C33_builder
* C34: C34_round_trip, C34_printable, C34_compare, C34_total_order
* C35: C35_exact, C35_components, C35_time_series, C35_references
* C36: C36_lookup, C36_bounded, C36_counters, C36_put_ok, C36_put_get, C36_evictions, C36_disabled, C36_clear_all, C36_clear_one
* C37: C37_accepted, C37_balance, C37_conserved, C37_nonneg, C37_capacity, C37_no_overflow, C37_own_share_partial, C37_shares_exchanged, C37_errors, C37_priorities
* C39: C39_meaning, C39_trichotomy, C39_nan, C39_negative_tolerance, C39_not_a_number, C39_not_transitive
* C40: C40_choke, C40_zero, C40_too_large, C40_settings, C40_downstream, C40_downstream_error, C40_upstream, C40_upstream_genuine, C40_upstream_bracket, C40_upstream_gap, C40_upstream_assertion
* C41: C41_train, C41_loops, C41_range, C41_range_runs, C41_range_above
* C42: C42_conserves, C42_errors, C42_order, C42_mixer
* C43: C43_rejects, C43_keeps_units, C43_targets, C43_uncovered
* C45: C45_range, C45_shared, C45_variable_sets, C45_single_keeps, C45_connect, C45_empty_range
* C46: C46_delta, C46_self, C46_swap, C46_no_overlap, C46_short_component, C46_power_lost
* C47: C47_column, C47_column_resampled, C47_installation, C47_attribute, C47_total, C47_export, C47_partition, C47_split_consumers, C47_combine, C47_rows, C47_nan_hides, C47_max_is_not_max
* C48: C48_found, C48_complete, C48_case, C48_own_column, C48_shadowed, C48_accepted, C48_rejected_header, C48_first_gap, C48_empty_table, C48_series_complete, C48_date_shadow
* C49: C49_in_interval, C49_local, C49_line, C49_flat
* C50: C50_divide, C50_from_rates, C50_sm3_boe, C50_weighted_average
* C51: C51_in_force, C51_defined, C51_refused, C51_settings, C51_component, C51_direct, C51_valid_without_number
* C52: C52_lookup, C52_point, C52_row_order, C52_columns, C52_refused, C52_consumer, C52_wrong_variables, C52_variable, C52_condition_not_off, C52_condition_invalid, C52_power_and_fuel
* C53: C53_power, C53_fuel, C53_emissions, C53_installation, C53_power_reported, C53_asset, C53_validity, C53_unit
* C54: C54_min, C54_max, C54_min_le_max, C54_smallest, C54_largest, C54_no_target, C54_target, C54_genuine, C54_answers, C54_needless_search, C54_insufficient_at_max
* C55: C55_min, C55_min_error, C55_one_retry, C55_find, C55_assertion, C55_too_low, C55_too_high, C55_eos_everywhere, C55_max_speed_untried
* C56: C56_make, C56_head, C56_efficiency, C56_points, C56_range, C56_antitone, C56_inverse, C56_no_margin, C56_margin, C56_chart, C56_chart_efficiency, C56_nearest, C56_full_margin, C56_large_margin, C56_negative_margin
* C57: C57_make, C57_errors, C57_not_running, C57_operating_point, C57_status, C57_power, C57_single_speed, C57_speed, C57_propagate, C57_streams, C57_streams_off, C57_simulation, C57_input, C57_off_below_required
* C58: C58_minimum_flow, C58_minimum_flow_single, C58_minimum_head, C58_maximum_rate, C58_valid_region, C58_speed_limits, C58_neighbours, C58_above_maximum
* C59: C59_off, C59_running, C59_margin, C59_agreement, C59_periods, C59_max_rate, C59_process_max_rate, C59_reported_head, C59_max_rate_above_chart, C59_epsilon
* C60: C60_wet, C60_dry, C60_once, C60_remover_errors, C60_temperature, C60_temperature_errors, C60_direct
* C61: C61_corrected, C61_corrected_no_choke, C61_capacity, C61_stone_wall, C61_capacity_no_choke, C61_stable
* C62: C62_unique, C62_antitone, C62_range, C62_accepted, C62_valid_iff, C62_speed_refused, C62_flow_refused, C62_ends, C62_area, C62_no_flow, C62_too_much_recirculation
* C63: C63_stretch, C63_shape, C63_design, C63_design_point
* C64: C64_covers, C64_terminates, C64_errors, C64_below_wall
* C65: C65_tokens, C65_refused, C65_lines, C65_words, C65_comment, C65_round_trip, C65_multiply, C65_negative, C65_exponent, C65_variables
* C66: C66_setting, C66_flow, C66_fraction, C66_capacity, C66_net, C66_power, C66_stateless, C66_split, C66_mix, C66_inlet, C66_empty_split
* C67: C67_streams, C67_layout, C67_nonnegative, C67_split, C67_parts, C67_cut, C67_idle
* C68: C68_status, C68_run, C68_check, C68_check_value, C68_failure, C68_valid, C68_power, C68_area
* C69: C69_range, C69_search, C69_bounds, C69_result, C69_unreachable, C69_step, C69_series
* C70: C70_valid, C70_downstream, C70_limit, C70_limit_kept, C70_upstream, C70_rate, C70_common, C70_recirculated, C70_pressure, C70_stage, C70_outlet_ignored, C70_power_ignored, C70_power_stale
* C71: C71_shaft, C71_valid, C71_control, C71_limit_ignored, C71_choke_refused, C71_crash
* C72: C72_mass, C72_taken, C72_upstream, C72_wall, C72_power, C72_history, C72_history_matters, C72_zero_taken
* C73: C73_probe, C73_fresh, C73_history, C73_others, C73_uncontrolled
* C74: C74_delivers, C74_stages, C74_stages_outlet, C74_top_speed, C74_unreachable, C74_upstream_last, C74_stages_drop
* C75: C75_shafts, C75_ratio, C75_pressures, C75_choke_places, C75_fresh, C75_shared_shaft, C75_not_the_maximum
* C76: C76_assembled, C76_accepts, C76_proper, C76_ends, C76_sections, C76_idle, C76_common_choke, C76_target_early
* C77: C77_safe, C77_solver, C77_assembled, C77_dry, C77_wet
* C78: C78_excess, C78_valid, C78_bracket, C78_capacity, C78_hopeless, C78_history, C78_raises, C78_overfull
* C79: C79_streams, C79_cut, C79_no_overflow, C79_history, C79_priorities, C79_rejected
* C80: C80_accepted, C80_energy, C80_off, C80_beyond, C80_range, C80_order, C80_max_rate, C80_max_rate_fixed, C80_max_rate_fails, C80_valid, C80_steps, C80_repeated, C80_constant, C80_monotone
* C81: C81_valid, C81_energy, C81_inside, C81_range, C81_max_rate, C81_max_rate_valid, C81_middle, C81_round, C81_corner, C81_diagonal
* C82: C82_pressure_of_head, C82_head_of_pressure, C82_head_order, C82_pressure_order, C82_scaling, C82_efficiency, C82_stage_ratio, C82_equal_split, C82_more_stages, C82_power
* C83: C83_energy, C83_pressure, C83_errors, C83_positive_only, C83_first, C83_range, C83_converges, C83_exact
* C84: C84_balance, C84_capacity, C84_area, C84_idle_stage, C84_train, C84_idle, C84_maximum_power, C84_consistent, C84_maximum_rate, C84_unattainable, C84_weakest_stage, C84_no_expansion
* C85: C85_total, C85_error, C85_order, C85_odd, C85_idempotent, C85_integers, C85_tidy, C85_zero, C85_minus_zero, C85_minus_one, C85_sum, C85_result
* C86: C86_relative_path, C86_relative_path_broken, C86_unique_names, C86_name_collision, C86_filetypes, C86_endings, C86_main_file
* C87: C87_one_reading, C87_read_as_written, C87_month_first_refused, C87_fraction
* C88: C88_parts_are_right, C88_dated_models, C88_dates_before_the_run_fail, C88_unseen_dates_fail, C88_plain_models
* C89: C89_run, C89_failing_model, C89_who_has_results
* C90: C90_fraction_of_total, C90_conserved, C90_compressor_setting, C90_pump_setting, C90_kind, C90_fractions_win, C90_missing, C90_negative, C90_comment, C90_unbalanced, C90_pump_stopped
* C91: C91_resolves, C91_accepted, C91_found, C91_made, C91_created, C91_simplified, C91_system, C91_fuel, C91_stream_hides, C91_pump_table, C91_stage_table
* C92: C92_ports, C92_order, C92_flow, C92_noticed, C92_interstage, C92_dropped
* C93: C93_conditions, C93_electricity, C93_fuel, C93_compressor, C93_pump, C93_streams, C93_table, C93_kind, C93_pump_no_pressure, C93_pump_no_rate, C93_train_no_pressure, C93_zero_condition, C93_comment
* C94: C94_emissions, C94_agree, C94_fuel, C94_report, C94_distinct, C94_diesel_twice, C94_gas_nowhere
* C95: C95_stages, C95_ladder, C95_no_compression, C95_maximum, C95_zero_suction, C95_fits, C95_fits_one, C95_together, C95_design
* C96: C96_report, C96_no_report, C96_local, C96_power, C96_loss, C96_valid, C96_idle, C96_requested, C96_adjustment_witness
* C98: C98_rename, C98_rename_once, C98_renames, C98_swap, C98_twice, C98_null, C98_series, C98_facility, C98_read, C98_found, C98_definitions
* C99: C99_errors, C99_messages, C99_single, C99_location, C99_names, C99_reference
* C100: C100_fuel, C100_accepted, C100_left_out, C100_refused, C100_late_fuel, C100_genset, C100_late_genset, C100_kind, C100_kind_unused
* C101: C101_inside, C101_collinear, C101_blend, C101_lower, C101_upper, C101_domain, C101_max_rate, C101_box, C101_box_minimum
* C102: C102_inside, C102_valid, C102_energy, C102_served, C102_range, C102_max_rate, C102_scale, C102_max_rate_falls, C102_small_rate
* C103: C103_file, C103_row_order, C103_yaml, C103_single, C103_single_refused, C103_refused, C103_not_a_number, C103_key_error, C103_report, C103_report_generic, C103_zero_efficiency
* C104: C104_value, C104_on_date, C104_only_dates, C104_in_effect, C104_aligned, C104_no_midnight
* C105: C105_heading, C105_table, C105_prefix, C105_csv, C105_series_resample, C105_resample, C105_no_clash, C105_stream_or_calendar, C105_order, C105_nested_left_out, C105_same_name, C105_same_stage_name
* C106: C106_answer_pt, C106_answer_ph, C106_enthalpy, C106_exact, C106_cleared, C106_disabled, C106_negative, C106_proportions, C106_rates, C106_repeat, C106_components, C106_mass, C106_alkanes, C106_sizes, C106_configure_late, C106_uncached, C106_gas_only, C106_shared, C106_guess, C106_trace, C106_cli_zero
* C107: C107_files, C107_defaults, C107_untouched, C107_invalid, C107_failed, C107_quiet, C107_second, C107_dotted, C107_status, C107_refused, C107_diagram, C107_dot, C107_empty_prefix, C107_slash
* C108: C108_picture, C108_once, C108_sound
* C109: C109_simulation, C109_simulations, C109_all, C109_fluid, C109_gases, C109_events, C109_event_of, C109_unknown_unit, C109_twice, C109_fractions, C109_change_from
* C110: C110_calls, C110_processes, C110_answers, C110_runs, C110_leaving, C110_memory, C110_nested, C110_stale, C110_change
* C112: C112_resolved, C112_missing
* C113: C113_inputs, C113_accepted, C113_reference, C113_runs, C113_off, C113_nan, C113_header
* C114: C114_installation
* C115: C115_found, C115_not_found, C115_variables
* C116: C116_archive, C116_refused, C116_uploads, C116_main, C116_any_order, C116_visible, C116_server_folder, C116_capitals, C116_garbled
* C117: C117_history, C117_applied, C117_capacity, C117_within, C117_max_rates, C117_steps, C117_driven, C117_sampled_turbine, C117_interstage, C117_adjusted
* C118: C118_data, C118_created, C118_order, C118_tabular, C118_lost_column, C118_fuel_case
* C120: C120_dates, C120_single, C120_periods, C120_written

## propext, Quot.sound

* C03: C03_mixed_keys_rejected
* C05: C05_misaligned_is_error
* C06: C06_frequency_date_missed
* C13: C13_for_period_misaligned, C13_one_value_per_period, C13_fill, C13_rate_cut_extend, C13_rate_extend_unchecked
* C15: C15_collections
* C18: C18_parse_written, C18_round_trip, C18_multiply, C18_unused_operand_dropped
* C22: C22_zero_condition_dropped, C22_single_condition
* C24: C24_no_settings
* C26: C26_first_feasible, C26_later_not_needed
* C31: C31_unique_names
* C34: C34_parse, C34_malformed, C34_unambiguous, C34_negative
* C36: C36_negative_size, C36_create_new
* C38: C38_handlers, C38_value, C38_assoc, C38_empty, C38_combine, C38_combine_assoc
* C41: C41_loop_state, C41_loop_set
* C44: C44_positions, C44_only_neighbours, C44_reachable, C44_sections
* C45: C45_accepts, C45_late_compressor
* C47: C47_table
* C48: C48_missing
* C51: C51_missing
* C67: C67_running
* C76: C76_target
* C80: C80_rejected
* C88: C88_dates_found
* C90: C90_accepted
* C91: C91_generic_chart
* C92: C92_exchanged, C92_shifted
* C97: C97_includes, C97_written_out, C97_all_files, C97_duplicate, C97_streams, C97_twice, C97_history, C97_history_plain, C97_former_place, C97_root, C97_wrong_file, C97_merge, C97_circular
* C98: C98_references, C98_files_renamed
* C99: C99_context, C99_mapping, C99_encloses, C99_date, C99_lower_case, C99_reference_keyword
* C104: C104_stale, C104_masked
* C109: C109_ambiguous
* C111: C111_references, C111_only
* C112: C112_again, C112_inner
* C114: C114_recognised, C114_single, C114_over_time, C114_dates, C114_same_instant, C114_number_key, C114_refused
* C115: C115_in_effect, C115_time_vector, C115_case
* C116: C116_same_path
* C119: C119_list, C119_invalid, C119_positions, C119_dict, C119_definitions
* C120: C120_kinds, C120_iso

## propext

* C01: C01_adjacent
* C02: C02_symmetric
* C05: C05_empty_is_error
* C06: C06_none
* C14: C14_volume_rate_inverse
* C18: C18_nothing_is_index_error
* C26: C26_empty
* C33: C33_add_edge_error
* C35: C35_components_unchecked
* C36: C36_create_existing
* C38: C38_failed_absorbs
* C43: C43_no_constraints_drops_units
* C48: C48_time_column
* C50: C50_accepted
* C91: C91_fuel_hidden, C91_simplified_duplicate, C91_unused_turbine
* C93: C93_refused
* C94: C94_headings, C94_no_category, C94_others
* C99: C99_date_hidden, C99_included
* C104: C104_succeeds
* C106: C106_cli
* C111: C111_single, C111_nested, C111_text
* C112: C112_optional, C112_annotated
* C119: C119_shifted, C119_empty
* C120: C120_all, C120_unsorted, C120_mixed

## none

* C04: C04_absent
* C22: C22_venting_ignores_conditions
* C26: C26_unique
* C43: C43_outlet_and_last, C43_other_pipeline_ignored
* C53: C53_empty_installation
* C92: C92_train
* C94: C94_same
