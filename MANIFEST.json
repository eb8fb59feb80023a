{
 "claims": [
  {
   "property": "C01",
   "status": "proved",
   "theorems": [
    "Verif.C01.C01_partition",
    "Verif.C01.C01_adjacent"
   ],
   "note": "Every strictly increasing date list and all four flag combinations; empty list with 'before' (IndexError) included."
  },
  {
   "property": "C02",
   "status": "proved",
   "theorems": [
    "Verif.C02.C02_intersects_iff_common_moment",
    "Verif.C02.C02_intersection_is_set_intersection",
    "Verif.C02.C02_symmetric",
    "Verif.C02.C02_contains",
    "Verif.C02.C02_order_total"
   ],
   "note": "All pairs of periods."
  },
  {
   "property": "C03",
   "status": "proved",
   "theorems": [
    "Verif.C03.C03_accepts_iff_ascending",
    "Verif.C03.C03_lookup_is_latest",
    "Verif.C03.C03_end_of_time",
    "Verif.C03.C03_period_lookup_sound",
    "Verif.C03.C03_period_lookup_complete",
    "Verif.C03.C03_mixed_keys_rejected"
   ],
   "note": "Date keys and period keys; lookup characterised both ways, error cases included."
  },
  {
   "property": "C04",
   "status": "proved",
   "theorems": [
    "Verif.C04.C04_clip_periods",
    "Verif.C04.C04_clip_dates",
    "Verif.C04.C04_plain",
    "Verif.C04.C04_create_lookup",
    "Verif.C04.C04_absent"
   ],
   "note": "Date-keyed and period-keyed definitions; the in-force function is compared moment by moment."
  },
  {
   "property": "C05",
   "status": "proved",
   "theorems": [
    "Verif.C05.C05_selects_overlapping",
    "Verif.C05.C05_misaligned_is_error",
    "Verif.C05.C05_disjoint_is_empty",
    "Verif.C05.C05_empty_is_error"
   ],
   "note": "Any consecutive period list; misaligned and disjoint cases proved too."
  },
  {
   "property": "C06",
   "status": "partial",
   "theorems": [
    "Verif.C06.C06_boundaries_partial",
    "Verif.C06.C06_partition",
    "Verif.C06.C06_none",
    "Verif.C06.C06_frequency_date_missed"
   ],
   "note": "Missing part: inner boundaries equal the frequency dates only if the time of day of the start is not after that of the end; C06_frequency_date_missed proves the code misses a date otherwise. The gap-free partition itself is unconditional."
  },
  {
   "property": "C07",
   "status": "proved",
   "theorems": [
    "Verif.C07.C07_calendar_stream_calendar",
    "Verif.C07.C07_stream_calendar_stream",
    "Verif.C07.C07_values",
    "Verif.C07.C07_same_type_unchanged"
   ],
   "note": "All series with one value and one regularity per period; round trips need non-zero regularity, C07_values covers zero regularity (NaN/0 branch) too."
  },
  {
   "property": "C08",
   "status": "proved",
   "theorems": [
    "Verif.C08.C08_volumes_round_trip",
    "Verif.C08.C08_cumulative_round_trip",
    "Verif.C08.C08_totals",
    "Verif.C08.C08_non_decreasing"
   ],
   "note": "All series including NaN values; NaN counts as zero volume, so the cumulative round trip is stated for series without NaN."
  },
  {
   "property": "C09",
   "status": "proved",
   "theorems": [
    "Verif.C09.C09_volume_inside",
    "Verif.C09.C09_total_conserved",
    "Verif.C09.C09_no_reporting_period",
    "Verif.C09.C09_none"
   ],
   "note": "All consecutive period lists and every reporting frequency. Total conserved up to the midnight of the last day (the code drops the rest and warns); the no-reporting-period IndexError is proved."
  },
  {
   "property": "C10",
   "status": "partial",
   "theorems": [
    "Verif.C10.C10_volume_is_rate_times_days",
    "Verif.C10.C10_rate_volume_rate",
    "Verif.C10.C10_resample_calendar",
    "Verif.C10.C10_resample_stream_partial",
    "Verif.C10.C10_stream_cancellation"
   ],
   "note": "Missing part: stream-day resampling preserves volume only for non-negative rates; C10_stream_cancellation proves the code loses volume when stream volumes cancel."
  },
  {
   "property": "C11",
   "status": "proved",
   "theorems": [
    "Verif.C11.C11_true_iff_all_true",
    "Verif.C11.C11_succeeds",
    "Verif.C11.C11_start_not_midnight_is_error"
   ],
   "note": "All flags, frequencies and consecutive periods; the ValueError for a non-midnight start is characterised exactly."
  },
  {
   "property": "C12",
   "status": "partial",
   "theorems": [
    "Verif.C12.C12_calendar_partial",
    "Verif.C12.C12_stream_same_regularity",
    "Verif.C12.C12_mismatch_rejected",
    "Verif.C12.C12_zero_sum_is_nan"
   ],
   "note": "Missing part: for calendar-day sums with differing regularities the result is exact only where the summed rates are not zero; C12_zero_sum_is_nan proves the code yields NaN (0/0 regularity) otherwise. Same-regularity stream-day sums and rejected mismatches are covered."
  },
  {
   "property": "C13",
   "status": "proved",
   "theorems": [
    "Verif.C13.C13_cut_extend",
    "Verif.C13.C13_for_period",
    "Verif.C13.C13_for_period_misaligned",
    "Verif.C13.C13_split_at_date",
    "Verif.C13.C13_extend_chronological",
    "Verif.C13.C13_extend_gap_rejected",
    "Verif.C13.C13_merge_chronological",
    "Verif.C13.C13_merge_rejected",
    "Verif.C13.C13_one_value_per_period",
    "Verif.C13.C13_fill",
    "Verif.C13.C13_rate_cut_extend",
    "Verif.C13.C13_rate_for_period",
    "Verif.C13.C13_rate_for_period_outside",
    "Verif.C13.C13_rate_extend",
    "Verif.C13.C13_rate_extend_unchecked"
   ],
   "note": "All cut points and period lists; misaligned slices and extension with a gap proved too. C13_rate_extend_unchecked records that the rate series accepts a non-contiguous extension."
  },
  {
   "property": "C14",
   "status": "proved",
   "theorems": [
    "Verif.C14.C14_round_trip",
    "Verif.C14.C14_same_unit",
    "Verif.C14.C14_unsupported",
    "Verif.C14.C14_physically_correct",
    "Verif.C14.C14_compose",
    "Verif.C14.C14_monotone",
    "Verif.C14.C14_volume_rate_inverse",
    "Verif.C14.C14_list_round_trip"
   ],
   "note": "Whole registry, every rational value; physical correctness stated against independent SI factors."
  },
  {
   "property": "C15",
   "status": "proved",
   "theorems": [
    "Verif.C15.C15_time_vector",
    "Verif.C15.C15_order_independent",
    "Verif.C15.C15_errors",
    "Verif.C15.C15_collections",
    "Verif.C15.C15_periods"
   ],
   "note": "All date lists, with and without start; order independence; error for no dates."
  },
  {
   "property": "C16",
   "status": "proved",
   "theorems": [
    "Verif.C16.C16_fit",
    "Verif.C16.C16_unique",
    "Verif.C16.C16_exact_at_series_dates",
    "Verif.C16.C16_empty_is_error"
   ],
   "note": "All strictly increasing series and increasing target vectors, three interpolation rules, both extrapolation flags; empty series raises."
  },
  {
   "property": "C17",
   "status": "proved",
   "theorems": [
    "Verif.C17.C17_resolves",
    "Verif.C17.C17_unresolvable_rejected",
    "Verif.C17.C17_solution_unique",
    "Verif.C17.C17_order_independent"
   ],
   "note": "All finite definition lists (single and time-dependent). Termination is the well-founded recursion of the model's loop, including the skip caused by removing from the list being iterated."
  },
  {
   "property": "C18",
   "status": "proved",
   "theorems": [
    "Verif.C18.C18_parse_written",
    "Verif.C18.C18_round_trip",
    "Verif.C18.C18_unbalanced_rejected",
    "Verif.C18.C18_multiply",
    "Verif.C18.C18_errors",
    "Verif.C18.C18_nothing_is_index_error",
    "Verif.C18.C18_unused_operand_dropped"
   ],
   "note": "Every tree and every parenthesisation. Recorded deviations: unused operands are dropped (C18_unused_operand_dropped) and expressions of only parentheses raise IndexError."
  },
  {
   "property": "C19",
   "status": "proved",
   "theorems": [
    "Verif.C19.C19_value_per_period",
    "Verif.C19.C19_meaning_unique",
    "Verif.C19.C19_missing_reference",
    "Verif.C19.C19_local",
    "Verif.C19.C19_subset",
    "Verif.C19.C19_subset_for_timestep",
    "Verif.C19.C19_last_timestep_is_error",
    "Verif.C19.C19_subset_for_period",
    "Verif.C19.C19_subset_beyond_is_error"
   ],
   "note": "All expressions and variable maps; power is an arbitrary function. Sub-range, time step and period subsets; findings for the last time step and for periods reaching beyond the map."
  },
  {
   "property": "C20",
   "status": "partial",
   "theorems": [
    "Verif.C20.C20_in_force",
    "Verif.C20.C20_misaligned",
    "Verif.C20.C20_variable_partial",
    "Verif.C20.C20_variable_unsorted"
   ],
   "note": "Temporal expressions: complete. Missing part (user variables): dates must be listed in increasing order; C20_variable_unsorted proves that otherwise the definitions are exchanged."
  },
  {
   "property": "C21",
   "status": "partial",
   "theorems": [
    "Verif.C21.C21_accepted_is_fraction",
    "Verif.C21.C21_expression_partial",
    "Verif.C21.C21_by_date",
    "Verif.C21.C21_default_is_one",
    "Verif.C21.C21_zero_becomes_one"
   ],
   "note": "Accepted regularities are fractions for every input (plain, dated, absent); dated inputs use the definition in force; absent input is 1. Missing part: a plain number 0 is not used as specified but becomes 1, proved in C21_zero_becomes_one."
  },
  {
   "property": "C22",
   "status": "proved",
   "theorems": [
    "Verif.C22.C22_masked",
    "Verif.C22.C22_unconditioned",
    "Verif.C22.C22_conditions_are_and",
    "Verif.C22.C22_zero_condition_dropped",
    "Verif.C22.C22_venting_ignores_conditions",
    "Verif.C22.C22_single_condition",
    "Verif.C22.C22_nan_condition"
   ],
   "note": "All expressions, conditions and variable maps; lists of conditions are AND. Recorded deviations: a numeric condition 0 is dropped for energy usage models, venting emitters ignore CONDITIONS lists, NaN condition counts as true alone and false joined."
  },
  {
   "property": "C23",
   "status": "proved",
   "theorems": [
    "Verif.C23.C23_usage",
    "Verif.C23.C23_no_factor",
    "Verif.C23.C23_factor_one_not_finite",
    "Verif.C23.C23_factor_above_one_negative"
   ],
   "note": "All usage and factor series. Factor 1 gives a non-finite value and a factor above 1 negative usage, both proved; the code has no validation."
  },
  {
   "property": "C24",
   "status": "proved",
   "theorems": [
    "Verif.C24.C24_first_valid",
    "Verif.C24.C24_no_settings",
    "Verif.C24.C24_system"
   ],
   "note": "All validity patterns, any number of settings, consumers and periods. Consumers are arbitrary period-wise functions with distinct names (distinctness is validated by the YAML)."
  },
  {
   "property": "C25",
   "status": "proved",
   "theorems": [
    "Verif.C25.C25_exact",
    "Verif.C25.C25_total",
    "Verif.C25.C25_nonnegative",
    "Verif.C25.C25_sender",
    "Verif.C25.C25_flag",
    "Verif.C25.C25_unknown_receiver",
    "Verif.C25.C25_chain_not_forwarded",
    "Verif.C25.C25_setting"
   ],
   "note": "Exact result, conservation for any specification (also negative indices), non-negativity, sender limits, reporting flag. C25_chain_not_forwarded: excess received by a consumer is not passed on along a chain."
  },
  {
   "property": "C26",
   "status": "proved",
   "theorems": [
    "Verif.C26.C26_first_feasible",
    "Verif.C26.C26_unique",
    "Verif.C26.C26_later_not_needed",
    "Verif.C26.C26_empty"
   ],
   "note": "All priority lists with distinct names and evaluators with distinct ids; edge cases (no priorities, no results) are errors."
  },
  {
   "property": "C27",
   "status": "proved",
   "theorems": [
    "Verif.C27.C27_search",
    "Verif.C27.C27_search_threshold",
    "Verif.C27.C27_search_misses_start",
    "Verif.C27.C27_lowest",
    "Verif.C27.C27_lowest_monotone",
    "Verif.C27.C27_highest",
    "Verif.C27.C27_highest_monotone",
    "Verif.C27.C27_maximize",
    "Verif.C27.C27_maximize_untested"
   ],
   "note": "All predicates, brackets, tolerances, iteration limits. Findings: search and maximize never test the lower end (C27_search_misses_start, C27_maximize_untested)."
  },
  {
   "property": "C28",
   "status": "proved",
   "theorems": [
    "Verif.C28.C28_bounds",
    "Verif.C28.C28_start",
    "Verif.C28.C28_converges",
    "Verif.C28.C28_engages",
    "Verif.C28.C28_counter",
    "Verif.C28.C28_first_two"
   ],
   "note": "All update sequences from any state within bounds; also geometric convergence towards a fixed proposal and the exact condition for damping."
  },
  {
   "property": "C29",
   "status": "partial",
   "theorems": [
    "Verif.C29.C29_zero_load",
    "Verif.C29.C29_nonnegative",
    "Verif.C29.C29_energy_balance",
    "Verif.C29.C29_flag",
    "Verif.C29.C29_overload_partial",
    "Verif.C29.C29_overload_missed",
    "Verif.C29.C29_false_alarm",
    "Verif.C29.C29_below_table",
    "Verif.C29.C29_elementwise"
   ],
   "note": "Zero load, non-negative fuel, energy balance, exact meaning of the flag for all tables and calibrations. Missing part: overload detection; C29_overload_missed and C29_false_alarm prove that the flag compares the load before calibration, so it is wrong whenever calibration changes the load."
  },
  {
   "property": "C30",
   "status": "proved",
   "theorems": [
    "Verif.C30.C30_valid_iff",
    "Verif.C30.C30_margin",
    "Verif.C30.C30_fuel",
    "Verif.C30.C30_gap",
    "Verif.C30.C30_no_missing",
    "Verif.C30.C30_evaluates",
    "Verif.C30.C30_stale_fuel",
    "Verif.C30.C30_fuel_defined",
    "Verif.C30.C30_production"
   ],
   "note": "Exact validity, margin and fuel for all tables, temporal models and power series. C30_stale_fuel: a period without a generator set repeats the last fuel value (reported as not valid)."
  },
  {
   "property": "C31",
   "status": "proved",
   "theorems": [
    "Verif.C31.C31_emissions",
    "Verif.C31.C31_one_fuel",
    "Verif.C31.C31_unique_names",
    "Verif.C31.C31_case_clash"
   ],
   "note": "All temporal fuels, factor expressions and rates. C31_case_clash: names differing only in case pass the uniqueness check and then fail an assertion."
  },
  {
   "property": "C32",
   "status": "partial",
   "theorems": [
    "Verif.C32.C32_direct_partial",
    "Verif.C32.C32_repeated_name",
    "Verif.C32.C32_last_wins",
    "Verif.C32.C32_oil_partial"
   ],
   "note": "Exact for emissions with distinct names, direct and oil emitters. Missing part: repeated names; C32_repeated_name and C32_last_wins prove that all but the last emission of a name are dropped (names are not validated to be unique)."
  },
  {
   "property": "C33",
   "status": "proved",
   "theorems": [
    "Verif.C33.C33_get_node",
    "Verif.C33.C33_add_edge",
    "Verif.C33.C33_add_edge_error",
    "Verif.C33.C33_successors",
    "Verif.C33.C33_successor_order",
    "Verif.C33.C33_all_successors",
    "Verif.C33.C33_unknown",
    "Verif.C33.C33_predecessor",
    "Verif.C33.C33_no_predecessor",
    "Verif.C33.C33_several_predecessors",
    "Verif.C33.C33_sorted",
    "Verif.C33.C33_root",
    "Verif.C33.C33_breadth_first",
    "Verif.C33.C33_builder"
   ],
   "note": "All histories of node, edge and subgraph insertions; acyclicity is needed (and exact) for the sorted order. Finding: several predecessors with UUID ids raise TypeError while the message is built (C33_several_predecessors)."
  },
  {
   "property": "C34",
   "status": "proved",
   "theorems": [
    "Verif.C34.C34_parse",
    "Verif.C34.C34_malformed",
    "Verif.C34.C34_unambiguous",
    "Verif.C34.C34_round_trip",
    "Verif.C34.C34_printable",
    "Verif.C34.C34_negative",
    "Verif.C34.C34_compare",
    "Verif.C34.C34_total_order"
   ],
   "note": "All strings and all integers (also beyond Python's digit limit). Findings: malformed strings become 0.0.0, a trailing newline is accepted, negative parts print to strings read as 0.0.0."
  },
  {
   "property": "C35",
   "status": "proved",
   "theorems": [
    "Verif.C35.C35_exact",
    "Verif.C35.C35_components",
    "Verif.C35.C35_components_unchecked",
    "Verif.C35.C35_time_series",
    "Verif.C35.C35_references"
   ],
   "note": "All lists and assets. Finding: component names are unchecked without a model name (C35_components_unchecked)."
  },
  {
   "property": "C36",
   "status": "proved",
   "theorems": [
    "Verif.C36.C36_lookup",
    "Verif.C36.C36_bounded",
    "Verif.C36.C36_counters",
    "Verif.C36.C36_put_ok",
    "Verif.C36.C36_put_get",
    "Verif.C36.C36_evictions",
    "Verif.C36.C36_disabled",
    "Verif.C36.C36_negative_size",
    "Verif.C36.C36_create_existing",
    "Verif.C36.C36_create_new",
    "Verif.C36.C36_clear_all",
    "Verif.C36.C36_clear_one"
   ],
   "note": "All operation histories, sizes and keys; methods are atomic (they run under the lock). Rounding of the hit rate is not modelled. C36_negative_size: a negative size makes every put fail."
  },
  {
   "property": "C37",
   "status": "partial",
   "theorems": [
    "Verif.C37.C37_accepted",
    "Verif.C37.C37_balance",
    "Verif.C37.C37_conserved",
    "Verif.C37.C37_nonneg",
    "Verif.C37.C37_capacity",
    "Verif.C37.C37_no_overflow",
    "Verif.C37.C37_own_share_partial",
    "Verif.C37.C37_shares_exchanged",
    "Verif.C37.C37_errors",
    "Verif.C37.C37_priorities"
   ],
   "note": "Conservation, capacity and errors are proved for every distribution. \"Own share\" holds when the declared order equals the order after sorting; C37_shares_exchanged proves that otherwise the code pairs rates with the wrong consumers."
  },
  {
   "property": "C38",
   "status": "proved",
   "theorems": [
    "Verif.C38.C38_handlers",
    "Verif.C38.C38_value",
    "Verif.C38.C38_assoc",
    "Verif.C38.C38_empty",
    "Verif.C38.C38_combine",
    "Verif.C38.C38_failed_absorbs",
    "Verif.C38.C38_combine_assoc"
   ],
   "note": "Merging configurations: handlers kept, last value wins, associative, failures absorb."
  },
  {
   "property": "C39",
   "status": "proved",
   "theorems": [
    "Verif.C39.C39_meaning",
    "Verif.C39.C39_trichotomy",
    "Verif.C39.C39_nan",
    "Verif.C39.C39_negative_tolerance",
    "Verif.C39.C39_not_a_number",
    "Verif.C39.C39_not_transitive"
   ],
   "note": "Tolerant comparisons: meaning, trichotomy, NaN, negative tolerance, non-numbers; tolerance equality is proved not transitive."
  },
  {
   "property": "C40",
   "status": "proved",
   "theorems": [
    "Verif.C40.C40_choke",
    "Verif.C40.C40_zero",
    "Verif.C40.C40_too_large",
    "Verif.C40.C40_settings",
    "Verif.C40.C40_downstream",
    "Verif.C40.C40_downstream_error",
    "Verif.C40.C40_upstream",
    "Verif.C40.C40_upstream_genuine",
    "Verif.C40.C40_upstream_bracket",
    "Verif.C40.C40_upstream_gap",
    "Verif.C40.C40_upstream_assertion"
   ],
   "note": "Chokes and the two choke solvers over an abstract fluid service. Upstream choke: success within tolerance under a continuity-style hypothesis on the root finder; two findings recorded as theorems."
  },
  {
   "property": "C41",
   "status": "proved",
   "theorems": [
    "Verif.C41.C41_train",
    "Verif.C41.C41_loops",
    "Verif.C41.C41_loop_state",
    "Verif.C41.C41_loop_set",
    "Verif.C41.C41_range",
    "Verif.C41.C41_range_runs",
    "Verif.C41.C41_range_above"
   ],
   "note": "Recirculation loops conserve mass for every state of the loop and any nesting; range is proved to be the operable recirculation interval. Finding: above stonewall the range is [0, 0]."
  },
  {
   "property": "C42",
   "status": "proved",
   "theorems": [
    "Verif.C42.C42_conserves",
    "Verif.C42.C42_errors",
    "Verif.C42.C42_order",
    "Verif.C42.C42_mixer"
   ],
   "note": "Mixing streams conserves mass and moles; error cases complete."
  },
  {
   "property": "C43",
   "status": "proved",
   "theorems": [
    "Verif.C43.C43_rejects",
    "Verif.C43.C43_keeps_units",
    "Verif.C43.C43_targets",
    "Verif.C43.C43_uncovered",
    "Verif.C43.C43_outlet_and_last",
    "Verif.C43.C43_other_pipeline_ignored",
    "Verif.C43.C43_no_constraints_drops_units"
   ],
   "note": "Partitioning of process trains into pressure sections. Findings: outlet constraint plus last-unit constraint gives IndexError; constraint on a unit of another pipeline is ignored; no constraints drops all units."
  },
  {
   "property": "C44",
   "status": "proved",
   "theorems": [
    "Verif.C44.C44_positions",
    "Verif.C44.C44_only_neighbours",
    "Verif.C44.C44_reachable",
    "Verif.C44.C44_sections"
   ],
   "note": "Connections of a pipeline: exactly the neighbours, in order."
  },
  {
   "property": "C45",
   "status": "proved",
   "theorems": [
    "Verif.C45.C45_range",
    "Verif.C45.C45_accepts",
    "Verif.C45.C45_shared",
    "Verif.C45.C45_variable_sets",
    "Verif.C45.C45_single_keeps",
    "Verif.C45.C45_connect",
    "Verif.C45.C45_empty_range",
    "Verif.C45.C45_late_compressor"
   ],
   "note": "Shaft speeds: the common speed range, speed sharing, variable/single speed behaviour for every sequence of operations. Two findings recorded as theorems: an empty speed range raises nothing (C45_empty_range) and a compressor connected after a single-speed shaft was set never receives a speed (C45_late_compressor)."
  },
  {
   "property": "C46",
   "status": "proved",
   "theorems": [
    "Verif.C46.C46_delta",
    "Verif.C46.C46_self",
    "Verif.C46.C46_swap",
    "Verif.C46.C46_no_overlap",
    "Verif.C46.C46_short_component",
    "Verif.C46.C46_power_lost"
   ],
   "note": "Delta profile of two results: pointwise difference on the shared timeline, self difference zero, antisymmetry, refusal without overlap. Findings: a component with fewer periods than its result is misaligned (C46_short_component) and a power change is lost when one side has no power (C46_power_lost)."
  },
  {
   "property": "C47",
   "status": "proved",
   "theorems": [
    "Verif.C47.C47_column",
    "Verif.C47.C47_column_resampled",
    "Verif.C47.C47_installation",
    "Verif.C47.C47_attribute",
    "Verif.C47.C47_total",
    "Verif.C47.C47_export",
    "Verif.C47.C47_partition",
    "Verif.C47.C47_split_consumers",
    "Verif.C47.C47_combine",
    "Verif.C47.C47_rows",
    "Verif.C47.C47_table",
    "Verif.C47.C47_nan_hides",
    "Verif.C47.C47_max_is_not_max"
   ],
   "note": "Volume queries: exact column at every frequency, from consumers' rates through categories to the table. Findings proved: C47_nan_hides, C47_max_is_not_max."
  },
  {
   "property": "C48",
   "status": "proved",
   "theorems": [
    "Verif.C48.C48_found",
    "Verif.C48.C48_missing",
    "Verif.C48.C48_complete",
    "Verif.C48.C48_case",
    "Verif.C48.C48_own_column",
    "Verif.C48.C48_shadowed",
    "Verif.C48.C48_accepted",
    "Verif.C48.C48_rejected_header",
    "Verif.C48.C48_first_gap",
    "Verif.C48.C48_empty_table",
    "Verif.C48.C48_time_column",
    "Verif.C48.C48_series_complete",
    "Verif.C48.C48_date_shadow"
   ],
   "note": "Tabular resources: exact header lookup, validation and time column. Findings proved: C48_shadowed, C48_empty_table, C48_date_shadow."
  },
  {
   "property": "C49",
   "status": "proved",
   "theorems": [
    "Verif.C49.C49_in_interval",
    "Verif.C49.C49_local",
    "Verif.C49.C49_line",
    "Verif.C49.C49_flat"
   ],
   "note": "All functions and intervals; numpy scalars (inf instead of ZeroDivisionError) are not modelled."
  },
  {
   "property": "C50",
   "status": "proved",
   "theorems": [
    "Verif.C50.C50_accepted",
    "Verif.C50.C50_divide",
    "Verif.C50.C50_from_rates",
    "Verif.C50.C50_sm3_boe",
    "Verif.C50.C50_weighted_average"
   ],
   "note": "Exact rationals; the unit conversion factors are those of the model units."
  },
  {
   "property": "C51",
   "status": "proved",
   "theorems": [
    "Verif.C51.C51_in_force",
    "Verif.C51.C51_defined",
    "Verif.C51.C51_missing",
    "Verif.C51.C51_refused",
    "Verif.C51.C51_settings",
    "Verif.C51.C51_component",
    "Verif.C51.C51_direct",
    "Verif.C51.C51_valid_without_number"
   ],
   "note": "All sequences of models. Also proved: validity is decided before the loss factor is applied, so a loss factor of 1 gives a usage that is not a number in a valid period; one model without power makes the consumer's power absent altogether."
  },
  {
   "property": "C52",
   "status": "proved",
   "theorems": [
    "Verif.C52.C52_lookup",
    "Verif.C52.C52_point",
    "Verif.C52.C52_row_order",
    "Verif.C52.C52_columns",
    "Verif.C52.C52_refused",
    "Verif.C52.C52_consumer",
    "Verif.C52.C52_wrong_variables",
    "Verif.C52.C52_variable",
    "Verif.C52.C52_condition_not_off",
    "Verif.C52.C52_condition_invalid",
    "Verif.C52.C52_power_and_fuel"
   ],
   "note": "Tables with one variable (several variables use scipy's Delaunay interpolation, not modelled). Also proved, against the manual: a false CONDITION does not make the usage zero, and a table with both POWER and FUEL takes FUEL for the variable."
  },
  {
   "property": "C53",
   "status": "proved",
   "theorems": [
    "Verif.C53.C53_power",
    "Verif.C53.C53_fuel",
    "Verif.C53.C53_emissions",
    "Verif.C53.C53_installation",
    "Verif.C53.C53_power_reported",
    "Verif.C53.C53_asset",
    "Verif.C53.C53_validity",
    "Verif.C53.C53_unit",
    "Verif.C53.C53_empty_installation"
   ],
   "note": "All assets whose component series lie on the model's periods in the usual units, power nowhere negative (negative power that cancels is the counterexample of C12). What is not a number counts as zero in sums, as in the code. Cumulative emission amounts (to_full_result) are C10 applied to these rates."
  },
  {
   "property": "C54",
   "status": "proved",
   "theorems": [
    "Verif.C54.C54_min",
    "Verif.C54.C54_max",
    "Verif.C54.C54_min_le_max",
    "Verif.C54.C54_smallest",
    "Verif.C54.C54_largest",
    "Verif.C54.C54_no_target",
    "Verif.C54.C54_target",
    "Verif.C54.C54_genuine",
    "Verif.C54.C54_answers",
    "Verif.C54.C54_needless_search",
    "Verif.C54.C54_insufficient_at_max"
   ],
   "note": "Findings: DidNotConvergeError although the smallest rate meets the target; insufficient inlet pressure at the largest rate escapes as an exception. Root finder (scipy) enters by its contract."
  },
  {
   "property": "C55",
   "status": "proved",
   "theorems": [
    "Verif.C55.C55_min",
    "Verif.C55.C55_min_error",
    "Verif.C55.C55_one_retry",
    "Verif.C55.C55_find",
    "Verif.C55.C55_assertion",
    "Verif.C55.C55_too_low",
    "Verif.C55.C55_too_high",
    "Verif.C55.C55_eos_everywhere",
    "Verif.C55.C55_max_speed_untried"
   ],
   "note": "Findings: 'EOS failed at all speeds' reported when only the two ends fail; DidNotConvergeError when only the largest speed works. Root finder (scipy) enters by its contract."
  },
  {
   "property": "C56",
   "status": "proved",
   "theorems": [
    "Verif.C56.C56_make",
    "Verif.C56.C56_head",
    "Verif.C56.C56_efficiency",
    "Verif.C56.C56_points",
    "Verif.C56.C56_range",
    "Verif.C56.C56_antitone",
    "Verif.C56.C56_inverse",
    "Verif.C56.C56_no_margin",
    "Verif.C56.C56_margin",
    "Verif.C56.C56_chart",
    "Verif.C56.C56_chart_efficiency",
    "Verif.C56.C56_nearest",
    "Verif.C56.C56_full_margin",
    "Verif.C56.C56_large_margin",
    "Verif.C56.C56_negative_margin"
   ],
   "note": "The nearest-curve geometry (shapely) is a parameter. Findings: margin 1 leaves a curve of one point (the next interpolation is constant), margins above 1 and below 0 are accepted and the new first point gets the largest/smallest head."
  },
  {
   "property": "C57",
   "status": "proved",
   "theorems": [
    "Verif.C57.C57_make",
    "Verif.C57.C57_errors",
    "Verif.C57.C57_not_running",
    "Verif.C57.C57_operating_point",
    "Verif.C57.C57_status",
    "Verif.C57.C57_power",
    "Verif.C57.C57_single_speed",
    "Verif.C57.C57_speed",
    "Verif.C57.C57_propagate",
    "Verif.C57.C57_streams",
    "Verif.C57.C57_streams_off",
    "Verif.C57.C57_simulation",
    "Verif.C57.C57_input",
    "Verif.C57.C57_off_below_required"
   ],
   "note": "The nearest-curve geometry is a parameter. Finding: a pump without flow is valid although its outlet is below the required pressure."
  },
  {
   "property": "C58",
   "status": "proved",
   "theorems": [
    "Verif.C58.C58_minimum_flow",
    "Verif.C58.C58_minimum_flow_single",
    "Verif.C58.C58_minimum_head",
    "Verif.C58.C58_maximum_rate",
    "Verif.C58.C58_valid_region",
    "Verif.C58.C58_speed_limits",
    "Verif.C58.C58_neighbours",
    "Verif.C58.C58_above_maximum"
   ],
   "note": "Hypotheses on the order of points are those the chart documentation asks for. Finding: above the maximum head the largest rate is the smallest rate of the fastest curve, not zero."
  },
  {
   "property": "C59",
   "status": "proved",
   "theorems": [
    "Verif.C59.C59_off",
    "Verif.C59.C59_running",
    "Verif.C59.C59_margin",
    "Verif.C59.C59_agreement",
    "Verif.C59.C59_periods",
    "Verif.C59.C59_max_rate",
    "Verif.C59.C59_process_max_rate",
    "Verif.C59.C59_reported_head",
    "Verif.C59.C59_max_rate_above_chart",
    "Verif.C59.C59_epsilon"
   ],
   "note": "Floating point addition of 1e-15 is modelled as vanishing from 16 on. Findings: the reported operational head is the required head, not the head the power was computed for; the largest rate above the chart is positive and fails when pumped; with heads below 16 J/kg the added epsilon puts a point of a flat curve above the chart."
  },
  {
   "property": "C60",
   "status": "proved",
   "theorems": [
    "Verif.C60.C60_wet",
    "Verif.C60.C60_dry",
    "Verif.C60.C60_once",
    "Verif.C60.C60_remover_errors",
    "Verif.C60.C60_temperature",
    "Verif.C60.C60_temperature_errors",
    "Verif.C60.C60_direct"
   ],
   "note": "Liquid remover, temperature setter, direct mixer and splitter on an abstract lawful fluid service."
  },
  {
   "property": "C61",
   "status": "proved",
   "theorems": [
    "Verif.C61.C61_corrected",
    "Verif.C61.C61_corrected_no_choke",
    "Verif.C61.C61_capacity",
    "Verif.C61.C61_stone_wall",
    "Verif.C61.C61_capacity_no_choke",
    "Verif.C61.C61_stable"
   ],
   "note": "Capacity with and without choking; stone wall; stability of the corrected point."
  },
  {
   "property": "C62",
   "status": "proved",
   "theorems": [
    "Verif.C62.C62_unique",
    "Verif.C62.C62_antitone",
    "Verif.C62.C62_range",
    "Verif.C62.C62_accepted",
    "Verif.C62.C62_valid_iff",
    "Verif.C62.C62_speed_refused",
    "Verif.C62.C62_flow_refused",
    "Verif.C62.C62_ends",
    "Verif.C62.C62_area",
    "Verif.C62.C62_no_flow",
    "Verif.C62.C62_too_much_recirculation"
   ],
   "note": "Findings: C62_no_flow, C62_too_much_recirculation."
  },
  {
   "property": "C63",
   "status": "proved",
   "theorems": [
    "Verif.C63.C63_stretch",
    "Verif.C63.C63_shape",
    "Verif.C63.C63_design",
    "Verif.C63.C63_design_point"
   ],
   "note": "Stretching invariance for all charts; unified constants are exact decimals."
  },
  {
   "property": "C64",
   "status": "proved",
   "theorems": [
    "Verif.C64.C64_covers",
    "Verif.C64.C64_terminates",
    "Verif.C64.C64_errors",
    "Verif.C64.C64_below_wall"
   ],
   "note": "Coverage with choking, size bounds, termination; finding C64_below_wall (docstring promise fails without choking)."
  },
  {
   "property": "C65",
   "status": "proved",
   "theorems": [
    "Verif.C65.C65_tokens",
    "Verif.C65.C65_refused",
    "Verif.C65.C65_lines",
    "Verif.C65.C65_words",
    "Verif.C65.C65_comment",
    "Verif.C65.C65_round_trip",
    "Verif.C65.C65_multiply",
    "Verif.C65.C65_negative",
    "Verif.C65.C65_exponent",
    "Verif.C65.C65_variables"
   ],
   "note": "Number parsing and printing are parameters with stated laws (Reads, Shaped); int/float distinction of tokens not modelled."
  },
  {
   "property": "C66",
   "status": "proved",
   "theorems": [
    "Verif.C66.C66_setting",
    "Verif.C66.C66_flow",
    "Verif.C66.C66_fraction",
    "Verif.C66.C66_capacity",
    "Verif.C66.C66_net",
    "Verif.C66.C66_power",
    "Verif.C66.C66_stateless",
    "Verif.C66.C66_split",
    "Verif.C66.C66_mix",
    "Verif.C66.C66_inlet",
    "Verif.C66.C66_empty_split"
   ],
   "note": "The compressor's operating point, the fluid service and the chart limits are parameters with stated laws. Floats are exact rationals."
  },
  {
   "property": "C67",
   "status": "proved",
   "theorems": [
    "Verif.C67.C67_streams",
    "Verif.C67.C67_layout",
    "Verif.C67.C67_nonnegative",
    "Verif.C67.C67_split",
    "Verif.C67.C67_parts",
    "Verif.C67.C67_cut",
    "Verif.C67.C67_running",
    "Verif.C67.C67_idle"
   ],
   "note": "any layout of side streams; the cut theorem assumes that making a stream of the fluid leaving the first part gives that stream"
  },
  {
   "property": "C68",
   "status": "proved",
   "theorems": [
    "Verif.C68.C68_status",
    "Verif.C68.C68_run",
    "Verif.C68.C68_check",
    "Verif.C68.C68_check_value",
    "Verif.C68.C68_failure",
    "Verif.C68.C68_valid",
    "Verif.C68.C68_power",
    "Verif.C68.C68_area"
   ],
   "note": "pressures and targets positive"
  },
  {
   "property": "C69",
   "status": "proved",
   "theorems": [
    "Verif.C69.C69_range",
    "Verif.C69.C69_search",
    "Verif.C69.C69_bounds",
    "Verif.C69.C69_result",
    "Verif.C69.C69_unreachable",
    "Verif.C69.C69_step",
    "Verif.C69.C69_series"
   ],
   "note": "root finder abstract (stays in its bracket); convergence is a hypothesis where needed"
  },
  {
   "property": "C70",
   "status": "proved",
   "theorems": [
    "Verif.C70.C70_valid",
    "Verif.C70.C70_downstream",
    "Verif.C70.C70_limit",
    "Verif.C70.C70_limit_kept",
    "Verif.C70.C70_upstream",
    "Verif.C70.C70_rate",
    "Verif.C70.C70_common",
    "Verif.C70.C70_recirculated",
    "Verif.C70.C70_pressure",
    "Verif.C70.C70_stage",
    "Verif.C70.C70_outlet_ignored",
    "Verif.C70.C70_power_ignored",
    "Verif.C70.C70_power_stale"
   ],
   "note": "root finder abstract; positive pressures; deviations proved by witness (C70_outlet_ignored, C70_power_ignored, C70_power_stale)"
  },
  {
   "property": "C71",
   "status": "proved",
   "theorems": [
    "Verif.C71.C71_shaft",
    "Verif.C71.C71_valid",
    "Verif.C71.C71_control",
    "Verif.C71.C71_limit_ignored",
    "Verif.C71.C71_choke_refused",
    "Verif.C71.C71_crash"
   ],
   "note": "root finder abstract; positive speeds and pressures; deviations proved by witness (C71_choke_refused, C71_crash)"
  },
  {
   "property": "C72",
   "status": "proved",
   "theorems": [
    "Verif.C72.C72_mass",
    "Verif.C72.C72_taken",
    "Verif.C72.C72_upstream",
    "Verif.C72.C72_wall",
    "Verif.C72.C72_power",
    "Verif.C72.C72_history",
    "Verif.C72.C72_history_matters",
    "Verif.C72.C72_zero_taken"
   ],
   "note": "root finders abstract, convergence and monotone machines are hypotheses (an example instantiates all of them); deviations proved by witness (C72_history_matters, C72_zero_taken); the stone wall branch (no choke) is modelled without a theorem on the rate"
  },
  {
   "property": "C73",
   "status": "proved",
   "theorems": [
    "Verif.C73.C73_probe",
    "Verif.C73.C73_fresh",
    "Verif.C73.C73_history",
    "Verif.C73.C73_others",
    "Verif.C73.C73_uncontrolled"
   ],
   "note": "histories of any length, arbitrary remains of searches; C73_uncontrolled shows that the condition is needed"
  },
  {
   "property": "C74",
   "status": "proved",
   "theorems": [
    "Verif.C74.C74_delivers",
    "Verif.C74.C74_stages",
    "Verif.C74.C74_stages_outlet",
    "Verif.C74.C74_top_speed",
    "Verif.C74.C74_unreachable",
    "Verif.C74.C74_upstream_last",
    "Verif.C74.C74_stages_drop"
   ],
   "note": "Model.Section (strategies, section solver). Accuracy of the root finder is a parameter; the last point it tries is a second function, needed only for upstream chokes and stages. Two deviations are proved with concrete sections."
  },
  {
   "property": "C75",
   "status": "proved",
   "theorems": [
    "Verif.C75.C75_shafts",
    "Verif.C75.C75_ratio",
    "Verif.C75.C75_pressures",
    "Verif.C75.C75_choke_places",
    "Verif.C75.C75_fresh",
    "Verif.C75.C75_shared_shaft",
    "Verif.C75.C75_not_the_maximum"
   ],
   "note": "Model.Sections on top of Model.Section. Sections controlled by stage pressures are excluded from the delivery theorems (see C74_stages), not from C75_fresh."
  },
  {
   "property": "C76",
   "status": "proved",
   "theorems": [
    "Verif.C76.C76_assembled",
    "Verif.C76.C76_accepts",
    "Verif.C76.C76_proper",
    "Verif.C76.C76_ends",
    "Verif.C76.C76_sections",
    "Verif.C76.C76_idle",
    "Verif.C76.C76_target",
    "Verif.C76.C76_common_choke",
    "Verif.C76.C76_target_early"
   ],
   "note": "Full for the modelled assembly; deviations are the theorems C76_common_choke (with C76_accepts telling exactly when) and C76_target_early."
  },
  {
   "property": "C77",
   "status": "proved",
   "theorems": [
    "Verif.C77.C77_safe",
    "Verif.C77.C77_solver",
    "Verif.C77.C77_assembled",
    "Verif.C77.C77_dry",
    "Verif.C77.C77_wet"
   ],
   "note": "Safe after anti-surge, exactness of the rates, no surge reports from the section solver; conditions proved for assembled sections. Deviation with wet gas exhibited."
  },
  {
   "property": "C78",
   "status": "proved",
   "theorems": [
    "Verif.C78.C78_excess",
    "Verif.C78.C78_valid",
    "Verif.C78.C78_bracket",
    "Verif.C78.C78_capacity",
    "Verif.C78.C78_hopeless",
    "Verif.C78.C78_history",
    "Verif.C78.C78_raises",
    "Verif.C78.C78_overfull"
   ],
   "note": "C78_excess and C78_valid: range of the excess and when it is 0; C78_bracket, C78_capacity: how close it is to the border; C78_hopeless: a train that handles nothing; C78_history: no dependence on earlier use; C78_raises: exceptions; C78_overfull: deviation, what is left is refused."
  },
  {
   "property": "C79",
   "status": "proved",
   "theorems": [
    "Verif.C79.C79_streams",
    "Verif.C79.C79_cut",
    "Verif.C79.C79_no_overflow",
    "Verif.C79.C79_history",
    "Verif.C79.C79_priorities",
    "Verif.C79.C79_rejected"
   ],
   "note": "C79_streams: number, conditions, total; C79_cut: trains with an overflow; C79_no_overflow; C79_history; C79_priorities; C79_rejected: deviation."
  },
  {
   "property": "C80",
   "status": "proved",
   "theorems": [
    "Verif.C80.C80_accepted",
    "Verif.C80.C80_rejected",
    "Verif.C80.C80_energy",
    "Verif.C80.C80_off",
    "Verif.C80.C80_beyond",
    "Verif.C80.C80_range",
    "Verif.C80.C80_order",
    "Verif.C80.C80_max_rate",
    "Verif.C80.C80_max_rate_fixed",
    "Verif.C80.C80_max_rate_fails",
    "Verif.C80.C80_valid",
    "Verif.C80.C80_steps",
    "Verif.C80.C80_repeated",
    "Verif.C80.C80_constant",
    "Verif.C80.C80_monotone"
   ],
   "note": "one varying variable in full; validation, off state, limits and the report for every interpolator (the two-dimensional one is C81)"
  },
  {
   "property": "C81",
   "status": "proved",
   "theorems": [
    "Verif.C81.C81_valid",
    "Verif.C81.C81_energy",
    "Verif.C81.C81_inside",
    "Verif.C81.C81_range",
    "Verif.C81.C81_max_rate",
    "Verif.C81.C81_max_rate_valid",
    "Verif.C81.C81_middle",
    "Verif.C81.C81_round",
    "Verif.C81.C81_corner",
    "Verif.C81.C81_diagonal"
   ],
   "note": "Contract of the geometric library is a hypothesis (Promise), satisfied by a concrete library in the examples. Hypothesis Round excludes exactly the shapes of the exhibited deviation; C81_round says when it can fail."
  },
  {
   "property": "C82",
   "status": "proved",
   "theorems": [
    "Verif.C82.C82_pressure_of_head",
    "Verif.C82.C82_head_of_pressure",
    "Verif.C82.C82_head_order",
    "Verif.C82.C82_pressure_order",
    "Verif.C82.C82_scaling",
    "Verif.C82.C82_efficiency",
    "Verif.C82.C82_stage_ratio",
    "Verif.C82.C82_equal_split",
    "Verif.C82.C82_more_stages",
    "Verif.C82.C82_power"
   ],
   "note": "Over the real numbers (Real.rpow). Gas with kappa > 1, positive efficiency, temperature, compressibility and molar mass."
  },
  {
   "property": "C83",
   "status": "proved",
   "theorems": [
    "Verif.C83.C83_energy",
    "Verif.C83.C83_pressure",
    "Verif.C83.C83_errors",
    "Verif.C83.C83_positive_only",
    "Verif.C83.C83_first",
    "Verif.C83.C83_range",
    "Verif.C83.C83_converges",
    "Verif.C83.C83_exact"
   ],
   "note": "Flash and Campbell are arbitrary functions; numbers exact."
  },
  {
   "property": "C84",
   "status": "proved",
   "theorems": [
    "Verif.C84.C84_balance",
    "Verif.C84.C84_capacity",
    "Verif.C84.C84_area",
    "Verif.C84.C84_idle_stage",
    "Verif.C84.C84_train",
    "Verif.C84.C84_idle",
    "Verif.C84.C84_maximum_power",
    "Verif.C84.C84_consistent",
    "Verif.C84.C84_maximum_rate",
    "Verif.C84.C84_unattainable",
    "Verif.C84.C84_weakest_stage",
    "Verif.C84.C84_no_expansion"
   ],
   "note": "Thermodynamics abstract; the stage ratio is a parameter (C82 says what it is). C84_maximum_rate and C84_unattainable are about a head that does not depend on the state of the gas."
  },
  {
   "property": "C85",
   "status": "proved",
   "theorems": [
    "Verif.C85.C85_total",
    "Verif.C85.C85_error",
    "Verif.C85.C85_order",
    "Verif.C85.C85_odd",
    "Verif.C85.C85_idempotent",
    "Verif.C85.C85_integers",
    "Verif.C85.C85_tidy",
    "Verif.C85.C85_zero",
    "Verif.C85.C85_minus_zero",
    "Verif.C85.C85_minus_one",
    "Verif.C85.C85_sum",
    "Verif.C85.C85_result"
   ],
   "note": "Exact decimals; numpy format_float_positional is modelled as rounding half to even of the exact value."
  },
  {
   "property": "C86",
   "status": "proved",
   "theorems": [
    "Verif.C86.C86_relative_path",
    "Verif.C86.C86_relative_path_broken",
    "Verif.C86.C86_unique_names",
    "Verif.C86.C86_name_collision",
    "Verif.C86.C86_filetypes",
    "Verif.C86.C86_endings",
    "Verif.C86.C86_main_file"
   ],
   "note": "Paths as lists of parts with their text; random suffix of very long names and the content of archives not modelled."
  },
  {
   "property": "C87",
   "status": "proved",
   "theorems": [
    "Verif.C87.C87_one_reading",
    "Verif.C87.C87_read_as_written",
    "Verif.C87.C87_month_first_refused",
    "Verif.C87.C87_fraction"
   ],
   "note": "pandas.to_datetime is a parameter with a contract on dashed texts; texts over 19 characters (fractions, zones, long years) excluded from the main theorem."
  },
  {
   "property": "C88",
   "status": "proved",
   "theorems": [
    "Verif.C88.C88_dates_found",
    "Verif.C88.C88_parts_are_right",
    "Verif.C88.C88_dated_models",
    "Verif.C88.C88_dates_before_the_run_fail",
    "Verif.C88.C88_unseen_dates_fail",
    "Verif.C88.C88_plain_models"
   ],
   "note": "Periods of the run are those of C15; the parts of the regularity are C20/C21. Period keys cannot be written in YAML and are covered by the general theorem on parts."
  },
  {
   "property": "C89",
   "status": "proved",
   "theorems": [
    "Verif.C89.C89_run",
    "Verif.C89.C89_failing_model",
    "Verif.C89.C89_who_has_results"
   ],
   "note": "Consumers are assumed to have different periods and not to mix consumer functions with registered models (the file validation forbids a change of type over time). uuid4 is a counter. What single models, consumers and generator sets compute is a parameter."
  },
  {
   "property": "C90",
   "status": "proved",
   "theorems": [
    "Verif.C90.C90_fraction_of_total",
    "Verif.C90.C90_conserved",
    "Verif.C90.C90_compressor_setting",
    "Verif.C90.C90_pump_setting",
    "Verif.C90.C90_kind",
    "Verif.C90.C90_accepted",
    "Verif.C90.C90_fractions_win",
    "Verif.C90.C90_missing",
    "Verif.C90.C90_negative",
    "Verif.C90.C90_comment",
    "Verif.C90.C90_unbalanced",
    "Verif.C90.C90_pump_stopped"
   ],
   "note": "Deviations exhibited: rates are silently ignored when fractions are given too (C90_fractions_win); missing rates, total or density surface as errors of the program (C90_missing); a comment or a minus sign in the total makes the rate unreadable (C90_comment, C90_negative); parentheses that do not match change its meaning (C90_unbalanced); pump pressures are checked while the pumps are stopped (C90_pump_stopped)."
  },
  {
   "property": "C91",
   "status": "proved",
   "theorems": [
    "Verif.C91.C91_resolves",
    "Verif.C91.C91_accepted",
    "Verif.C91.C91_found",
    "Verif.C91.C91_made",
    "Verif.C91.C91_created",
    "Verif.C91.C91_simplified",
    "Verif.C91.C91_system",
    "Verif.C91.C91_fuel",
    "Verif.C91.C91_stream_hides",
    "Verif.C91.C91_fuel_hidden",
    "Verif.C91.C91_pump_table",
    "Verif.C91.C91_stage_table",
    "Verif.C91.C91_generic_chart",
    "Verif.C91.C91_simplified_duplicate",
    "Verif.C91.C91_unused_turbine"
   ],
   "note": "All names, items and chains of references. Items are kept as their type and references only; the numbers in them and the files they name are not modelled. Streams and pipelines have to be called what their key says (C91_stream_hides exhibits what happens otherwise)."
  },
  {
   "property": "C92",
   "status": "proved",
   "theorems": [
    "Verif.C92.C92_ports",
    "Verif.C92.C92_order",
    "Verif.C92.C92_flow",
    "Verif.C92.C92_noticed",
    "Verif.C92.C92_interstage",
    "Verif.C92.C92_train",
    "Verif.C92.C92_dropped",
    "Verif.C92.C92_exchanged",
    "Verif.C92.C92_shifted"
   ],
   "note": "All trains, orders and rates. Of a stage only the streams and the interstage control are kept; what a stage does with the streams it is given is proved elsewhere (models Stage and Train)."
  },
  {
   "property": "C93",
   "status": "proved",
   "theorems": [
    "Verif.C93.C93_conditions",
    "Verif.C93.C93_electricity",
    "Verif.C93.C93_fuel",
    "Verif.C93.C93_compressor",
    "Verif.C93.C93_pump",
    "Verif.C93.C93_streams",
    "Verif.C93.C93_table",
    "Verif.C93.C93_refused",
    "Verif.C93.C93_kind",
    "Verif.C93.C93_pump_no_pressure",
    "Verif.C93.C93_pump_no_rate",
    "Verif.C93.C93_train_no_pressure",
    "Verif.C93.C93_zero_condition",
    "Verif.C93.C93_comment"
   ],
   "note": "Conditions, direct consumers, tables, pumps, compressors and trains with several streams. References are parameters; systems are in C90."
  },
  {
   "property": "C94",
   "status": "proved",
   "theorems": [
    "Verif.C94.C94_emissions",
    "Verif.C94.C94_agree",
    "Verif.C94.C94_fuel",
    "Verif.C94.C94_report",
    "Verif.C94.C94_distinct",
    "Verif.C94.C94_same",
    "Verif.C94.C94_headings",
    "Verif.C94.C94_no_category",
    "Verif.C94.C94_diesel_twice",
    "Verif.C94.C94_gas_nowhere",
    "Verif.C94.C94_others"
   ],
   "note": "The 57 columns of the long term and 7 of the short term prognosis are in the model literally. Findings: emissions and consumption of diesel in boilers and heaters are counted twice; fuel gas of other consumers and of mobile installations is in no column; an installation without category has no emission columns; the maximum from shore is as in C47."
  },
  {
   "property": "C95",
   "status": "proved",
   "theorems": [
    "Verif.C95.C95_stages",
    "Verif.C95.C95_ladder",
    "Verif.C95.C95_no_compression",
    "Verif.C95.C95_maximum",
    "Verif.C95.C95_zero_suction",
    "Verif.C95.C95_fits",
    "Verif.C95.C95_fits_one",
    "Verif.C95.C95_together",
    "Verif.C95.C95_design"
   ],
   "note": "For several time steps and a gas whose head depends on its state the statement is false: C95_together exhibits a gas and four time steps. Stages with a given design point are modelled but nothing is claimed about their fit."
  },
  {
   "property": "C96",
   "status": "proved",
   "theorems": [
    "Verif.C96.C96_report",
    "Verif.C96.C96_no_report",
    "Verif.C96.C96_local",
    "Verif.C96.C96_power",
    "Verif.C96.C96_loss",
    "Verif.C96.C96_valid",
    "Verif.C96.C96_idle",
    "Verif.C96.C96_requested",
    "Verif.C96.C96_adjustment_witness"
   ],
   "note": "The failure status of a time step is given (it is C68); charts and turbines in the result are left out."
  },
  {
   "property": "C97",
   "status": "proved",
   "theorems": [
    "Verif.C97.C97_includes",
    "Verif.C97.C97_written_out",
    "Verif.C97.C97_all_files",
    "Verif.C97.C97_duplicate",
    "Verif.C97.C97_streams",
    "Verif.C97.C97_twice",
    "Verif.C97.C97_history",
    "Verif.C97.C97_history_plain",
    "Verif.C97.C97_former_place",
    "Verif.C97.C97_root",
    "Verif.C97.C97_wrong_file",
    "Verif.C97.C97_merge",
    "Verif.C97.C97_circular"
   ],
   "note": "PyYAML composing a document is not modelled: documents are trees of nodes or the position of a syntax error. Four deviations are exhibited for all inputs of their form (C97_twice, C97_former_place, C97_wrong_file, C97_merge)."
  },
  {
   "property": "C98",
   "status": "proved",
   "theorems": [
    "Verif.C98.C98_rename",
    "Verif.C98.C98_rename_once",
    "Verif.C98.C98_renames",
    "Verif.C98.C98_swap",
    "Verif.C98.C98_twice",
    "Verif.C98.C98_null",
    "Verif.C98.C98_references",
    "Verif.C98.C98_series",
    "Verif.C98.C98_facility",
    "Verif.C98.C98_read",
    "Verif.C98.C98_found",
    "Verif.C98.C98_files_renamed",
    "Verif.C98.C98_definitions"
   ],
   "note": "What a file contains is the outcome of reading it (missing, invalid or a table). Values shared by YAML aliases, which change together, are not modelled. Four deviations are exhibited for all inputs of their form (C98_twice, C98_swap, C98_definitions, C98_null)."
  },
  {
   "property": "C99",
   "status": "proved",
   "theorems": [
    "Verif.C99.C99_context",
    "Verif.C99.C99_mapping",
    "Verif.C99.C99_encloses",
    "Verif.C99.C99_date",
    "Verif.C99.C99_date_hidden",
    "Verif.C99.C99_lower_case",
    "Verif.C99.C99_included",
    "Verif.C99.C99_errors",
    "Verif.C99.C99_messages",
    "Verif.C99.C99_single",
    "Verif.C99.C99_location",
    "Verif.C99.C99_names",
    "Verif.C99.C99_reference",
    "Verif.C99.C99_reference_keyword"
   ],
   "note": "Proved for a tree of values with places; upper-casing, reading of dates and what pydantic finds are parameters. Findings (theorems): keys that are not dates hide dates behind them; names in lower case are never found; the file name is always that of the main file; things called single or temporal are missing from locations."
  },
  {
   "property": "C100",
   "status": "proved",
   "theorems": [
    "Verif.C100.C100_fuel",
    "Verif.C100.C100_accepted",
    "Verif.C100.C100_left_out",
    "Verif.C100.C100_refused",
    "Verif.C100.C100_late_fuel",
    "Verif.C100.C100_genset",
    "Verif.C100.C100_late_genset",
    "Verif.C100.C100_kind",
    "Verif.C100.C100_kind_unused"
   ],
   "note": "All moments of the run for consumers of fuel and generator sets whose definitions are constants or strictly increasing dates before the end of time. The target period is not empty and does not end after datetime.max. References are looked up by a function; the models of a generator set and the usage models are values. What the consumers of a generator set are is not part of this property."
  },
  {
   "property": "C101",
   "status": "proved",
   "theorems": [
    "Verif.C101.C101_inside",
    "Verif.C101.C101_collinear",
    "Verif.C101.C101_blend",
    "Verif.C101.C101_lower",
    "Verif.C101.C101_upper",
    "Verif.C101.C101_domain",
    "Verif.C101.C101_max_rate",
    "Verif.C101.C101_box",
    "Verif.C101.C101_box_minimum"
   ],
   "note": "The promise about the library (IsHull) is stated in C101.lean: every facet is a proper triangle in its plane, the half-spaces describe the space, and each plane is covered by facets. Where the middle of the box is outside the space, C101_box and C101_box_minimum show that the classification goes wrong; flat triangles contain every point (C101_collinear)."
  },
  {
   "property": "C102",
   "status": "proved",
   "theorems": [
    "Verif.C102.C102_inside",
    "Verif.C102.C102_valid",
    "Verif.C102.C102_energy",
    "Verif.C102.C102_served",
    "Verif.C102.C102_range",
    "Verif.C102.C102_max_rate",
    "Verif.C102.C102_scale",
    "Verif.C102.C102_max_rate_falls",
    "Verif.C102.C102_small_rate"
   ],
   "note": "The promise about hulls and interpolations is a hypothesis (Promise), with an example that satisfies it. C102_small_rate shows that a rate below the tolerance may be lost, C102_max_rate_falls that the maximum rate may fall with the suction pressure, C102_scale that tables with small rates are rejected."
  },
  {
   "property": "C103",
   "status": "proved",
   "theorems": [
    "Verif.C103.C103_file",
    "Verif.C103.C103_row_order",
    "Verif.C103.C103_yaml",
    "Verif.C103.C103_single",
    "Verif.C103.C103_single_refused",
    "Verif.C103.C103_refused",
    "Verif.C103.C103_not_a_number",
    "Verif.C103.C103_key_error",
    "Verif.C103.C103_report",
    "Verif.C103.C103_report_generic",
    "Verif.C103.C103_zero_efficiency"
   ],
   "note": "Whole of user_defined_chart_data.py and serializable_chart.py. C103_report needs strictly increasing rates and a margin below one (C56 shows what happens otherwise). C103_key_error and C103_zero_efficiency are findings."
  },
  {
   "property": "C104",
   "status": "proved",
   "theorems": [
    "Verif.C104.C104_succeeds",
    "Verif.C104.C104_value",
    "Verif.C104.C104_on_date",
    "Verif.C104.C104_only_dates",
    "Verif.C104.C104_in_effect",
    "Verif.C104.C104_aligned",
    "Verif.C104.C104_stale",
    "Verif.C104.C104_masked",
    "Verif.C104.C104_no_midnight"
   ],
   "note": "Exact account of TimeSeriesFloat.resample; the value in effect is shown when the changes follow the calendar of the frequency (C104_aligned, C104_in_effect). C104_stale, C104_masked and C104_no_midnight show what is lost otherwise."
  },
  {
   "property": "C105",
   "status": "proved",
   "theorems": [
    "Verif.C105.C105_heading",
    "Verif.C105.C105_table",
    "Verif.C105.C105_prefix",
    "Verif.C105.C105_csv",
    "Verif.C105.C105_series_resample",
    "Verif.C105.C105_resample",
    "Verif.C105.C105_no_clash",
    "Verif.C105.C105_stream_or_calendar",
    "Verif.C105.C105_order",
    "Verif.C105.C105_nested_left_out",
    "Verif.C105.C105_same_name",
    "Verif.C105.C105_same_stage_name"
   ],
   "note": "C105_csv and C105_table give the exact columns and rows for objects of any depth; C105_no_clash removes the hypothesis about headings for components; C105_nested_left_out, C105_same_name and C105_same_stage_name are findings. Number and date formatting is not modelled."
  },
  {
   "property": "C106",
   "status": "proved",
   "theorems": [
    "Verif.C106.C106_answer_pt",
    "Verif.C106.C106_answer_ph",
    "Verif.C106.C106_enthalpy",
    "Verif.C106.C106_exact",
    "Verif.C106.C106_cleared",
    "Verif.C106.C106_disabled",
    "Verif.C106.C106_negative",
    "Verif.C106.C106_proportions",
    "Verif.C106.C106_rates",
    "Verif.C106.C106_repeat",
    "Verif.C106.C106_components",
    "Verif.C106.C106_mass",
    "Verif.C106.C106_alkanes",
    "Verif.C106.C106_sizes",
    "Verif.C106.C106_configure_late",
    "Verif.C106.C106_cli",
    "Verif.C106.C106_uncached",
    "Verif.C106.C106_gas_only",
    "Verif.C106.C106_shared",
    "Verif.C106.C106_guess",
    "Verif.C106.C106_trace",
    "Verif.C106.C106_cli_zero"
   ],
   "note": "NeqSim is a parameter (any outcome of creating, flashing and reading a system, errors and NaN included). Floats are exact, so rounding to 6 and 8 digits is rounding of the exact number. Findings: the caches can be seen within the rounding; the temperature guess and the target enthalpy of later requests are ignored on a hit; negative sizes make every flash fail; --flash-cache-size 0 and --reference-cache-size 0 use the default size."
  },
  {
   "property": "C107",
   "status": "proved",
   "theorems": [
    "Verif.C107.C107_files",
    "Verif.C107.C107_defaults",
    "Verif.C107.C107_untouched",
    "Verif.C107.C107_invalid",
    "Verif.C107.C107_failed",
    "Verif.C107.C107_quiet",
    "Verif.C107.C107_second",
    "Verif.C107.C107_dotted",
    "Verif.C107.C107_status",
    "Verif.C107.C107_refused",
    "Verif.C107.C107_diagram",
    "Verif.C107.C107_dot",
    "Verif.C107.C107_empty_prefix",
    "Verif.C107.C107_slash"
   ],
   "note": "Disk as functions from paths to files and folders; every part of the run that may fail is a parameter. Of the texts of the files only the kind and the run they come from are modelled; the columns of the table are in C105."
  },
  {
   "property": "C108",
   "status": "proved",
   "theorems": [
    "Verif.C108.C108_picture",
    "Verif.C108.C108_once",
    "Verif.C108.C108_sound"
   ],
   "note": "Built on the graph of a mapped file (C89). The JSON text is not modelled. Hypotheses: the periods of a consumer differ, and what is listed under FUELCONSUMERS is a fuel consumer (both hold by the types of the file)."
  },
  {
   "property": "C109",
   "status": "proved",
   "theorems": [
    "Verif.C109.C109_simulation",
    "Verif.C109.C109_simulations",
    "Verif.C109.C109_all",
    "Verif.C109.C109_fluid",
    "Verif.C109.C109_gases",
    "Verif.C109.C109_events",
    "Verif.C109.C109_event_of",
    "Verif.C109.C109_unknown_unit",
    "Verif.C109.C109_twice",
    "Verif.C109.C109_fractions",
    "Verif.C109.C109_ambiguous",
    "Verif.C109.C109_change_from"
   ],
   "note": "registries of definitions, chart validation and the assembly of a section are parameters; findings: unknown CHANGE_TARGET is a KeyError, a target listed twice gives two pipelines of one name, RATE_FRACTIONS are not counted, ambiguous process events take the first event, CHANGE_FROM is not read"
  },
  {
   "property": "C110",
   "status": "proved",
   "theorems": [
    "Verif.C110.C110_calls",
    "Verif.C110.C110_processes",
    "Verif.C110.C110_answers",
    "Verif.C110.C110_runs",
    "Verif.C110.C110_leaving",
    "Verif.C110.C110_memory",
    "Verif.C110.C110_nested",
    "Verif.C110.C110_stale",
    "Verif.C110.C110_change"
   ],
   "note": "calls are atomic steps (no interleaving inside a call); what Java computes is a parameter; findings: leaving an inner service shuts down the outer one, a gateway that refuses to shut down leaves its process running and its object can shut down a later service, the kind can change after a shut down, a newline is accepted after the memory"
  },
  {
   "property": "C111",
   "status": "proved",
   "theorems": [
    "Verif.C111.C111_references",
    "Verif.C111.C111_only",
    "Verif.C111.C111_single",
    "Verif.C111.C111_nested",
    "Verif.C111.C111_text"
   ],
   "note": "full: references = those of the expressions at their places, for all trees of regular classes; upper bound for all classes; three findings"
  },
  {
   "property": "C112",
   "status": "proved",
   "theorems": [
    "Verif.C112.C112_resolved",
    "Verif.C112.C112_missing",
    "Verif.C112.C112_again",
    "Verif.C112.C112_optional",
    "Verif.C112.C112_annotated",
    "Verif.C112.C112_inner"
   ],
   "note": "full: by paths, for all trees of direct classes; errors; idempotence; three findings"
  },
  {
   "property": "C113",
   "status": "proved",
   "theorems": [
    "Verif.C113.C113_inputs",
    "Verif.C113.C113_accepted",
    "Verif.C113.C113_reference",
    "Verif.C113.C113_runs",
    "Verif.C113.C113_off",
    "Verif.C113.C113_nan",
    "Verif.C113.C113_header"
   ],
   "note": "Covers the mapper of pump process simulations on top of the models of charts (C103), expressions (C19), regularity (C21) and pumps (C57). Findings: C113_off (negative target with the pump off is refused), C113_nan (NaN accepted), C113_header (KeyError for a lower-case header)."
  },
  {
   "property": "C114",
   "status": "proved",
   "theorems": [
    "Verif.C114.C114_recognised",
    "Verif.C114.C114_single",
    "Verif.C114.C114_over_time",
    "Verif.C114.C114_dates",
    "Verif.C114.C114_same_instant",
    "Verif.C114.C114_number_key",
    "Verif.C114.C114_refused",
    "Verif.C114.C114_installation"
   ],
   "note": "All of the statement. strptime, the reading of dates by pydantic, the digits of regular expressions and the validator of a single value are parameters; only the fields the rules look at are kept."
  },
  {
   "property": "C115",
   "status": "proved",
   "theorems": [
    "Verif.C115.C115_in_effect",
    "Verif.C115.C115_found",
    "Verif.C115.C115_not_found",
    "Verif.C115.C115_time_vector",
    "Verif.C115.C115_variables",
    "Verif.C115.C115_case"
   ],
   "note": "All of the statement. scipy interp1d is written out as in C16; str.lower is a parameter; the cells of columns are numbers (exact rationals); valid files are those Verif.Resource lets through."
  },
  {
   "property": "C116",
   "status": "proved",
   "theorems": [
    "Verif.C116.C116_archive",
    "Verif.C116.C116_refused",
    "Verif.C116.C116_uploads",
    "Verif.C116.C116_main",
    "Verif.C116.C116_any_order",
    "Verif.C116.C116_same_path",
    "Verif.C116.C116_visible",
    "Verif.C116.C116_server_folder",
    "Verif.C116.C116_capitals",
    "Verif.C116.C116_garbled"
   ],
   "note": "unpack_zip, validate_filetypes and get_main_file with what is in the files; zipfile and the folders of the server are parameters."
  },
  {
   "property": "C117",
   "status": "proved",
   "theorems": [
    "Verif.C117.C117_history",
    "Verif.C117.C117_applied",
    "Verif.C117.C117_capacity",
    "Verif.C117.C117_within",
    "Verif.C117.C117_max_rates",
    "Verif.C117.C117_steps",
    "Verif.C117.C117_driven",
    "Verif.C117.C117_sampled_turbine",
    "Verif.C117.C117_interstage",
    "Verif.C117.C117_adjusted"
   ],
   "note": "C117_history, C117_applied, C117_steps, C117_driven, C117_max_rates, C117_capacity, C117_within; findings C117_sampled_turbine, C117_interstage, C117_adjusted."
  },
  {
   "property": "C118",
   "status": "proved",
   "theorems": [
    "Verif.C118.C118_data",
    "Verif.C118.C118_created",
    "Verif.C118.C118_order",
    "Verif.C118.C118_tabular",
    "Verif.C118.C118_lost_column",
    "Verif.C118.C118_fuel_case"
   ],
   "note": "Proved for the columns as given by the resource. Findings: a column with a cell that is no number is left out silently (C118_lost_column); the name FUEL counts only in capitals (C118_fuel_case)."
  },
  {
   "property": "C119",
   "status": "proved",
   "theorems": [
    "Verif.C119.C119_list",
    "Verif.C119.C119_invalid",
    "Verif.C119.C119_positions",
    "Verif.C119.C119_dict",
    "Verif.C119.C119_definitions",
    "Verif.C119.C119_shifted",
    "Verif.C119.C119_empty"
   ],
   "note": "Proved; validation of an entry is a parameter. Findings: positions shift after an invalid entry (C119_shifted); an empty PROCESS_UNITS or FLUIDS ends with an AttributeError (C119_empty)."
  },
  {
   "property": "C120",
   "status": "proved",
   "theorems": [
    "Verif.C120.C120_dates",
    "Verif.C120.C120_single",
    "Verif.C120.C120_kinds",
    "Verif.C120.C120_periods",
    "Verif.C120.C120_written",
    "Verif.C120.C120_all",
    "Verif.C120.C120_iso",
    "Verif.C120.C120_unsorted",
    "Verif.C120.C120_mixed"
   ],
   "note": "Proved for dates that are datetimes in order of time. Findings: ISO texts are never converted (C120_iso), dates out of order give reversed periods (C120_unsorted), dates mixed with texts stay as they are (C120_mixed). The mappers of the YAML now pass single expressions only."
  }
 ]
}