{"id": "C01", "title": "Periods built from dates partition the timeline", "statement": "Building periods from a strictly increasing list of dates yields periods in which every moment of the covered timeline lies in exactly one period: [first,last) when neither 'before' nor 'after' is requested, everything before the first date as well when 'before' is requested, everything from the last date up to the end of time when 'after' is requested. Neighbouring periods share their boundary and the number of periods is determined by the number of dates and the two flags.", "quantifier": "every strictly increasing list of dates inside the representable range, both flags, every moment", "why_tests_cant": "Tests try a few hand-picked date lists; double counting or gaps at a boundary show up only for some list, flag and moment, and the claim is a for-all over all of them.", "anchors": ["src/libecalc/common/time_utils.py: Periods.create_periods, Period.__contains__"]}
{"id": "C02", "title": "Period overlap and intersection are set intersection", "statement": "Two non-empty periods are reported as intersecting exactly when some moment is in both; the intersection operation returns a non-empty period containing exactly the common moments and is symmetric; it returns nothing exactly when there are no common moments. A period contains another exactly when the other is non-empty and each of its moments is contained.", "quantifier": "all pairs of periods and all moments", "why_tests_cant": "There are infinitely many relative positions including touching ends and empty periods; a sample cannot exclude an off-by-one at half-open ends.", "anchors": ["src/libecalc/common/time_utils.py: Period.intersects, Period.intersection, Period.__contains__"]}
{"id": "C03", "title": "A temporal model gives the last definition at or before the date", "statement": "A temporal model built from date keys is accepted only if the dates are in ascending order; then looking up any moment gives the value of the latest key that is not after that moment; a moment before the first key (or at the end of time) raises an error, never a wrong value. Looking up a period returns a value only if one definition is in force throughout the period.", "quantifier": "all key lists, all values, all queried moments and periods", "why_tests_cant": "The lookup is a linear scan over periods derived from neighbouring keys; a wrong choice arises only for specific positions of the query relative to the keys.", "anchors": ["src/libecalc/common/temporal_model.py: TemporalModel.__init__, TemporalModel.get_model", "src/libecalc/common/time_utils.py: Period.__contains__"]}
{"id": "C04", "title": "Restricting a temporal model to a target period never changes what is in force", "statement": "After a time-varying definition is restricted to a component's target period, every moment inside the target period has the same definition in force as before, and no moment outside the target period has any definition. A non-temporal definition is in force throughout the whole target period.", "quantifier": "all temporal definitions with ascending dates or disjoint periods, all target periods, all moments", "why_tests_cant": "Requires equality of two functions of time, for all definitions and targets; examples only exercise a few overlaps.", "anchors": ["src/libecalc/common/time_utils.py: define_time_model_for_period, default_temporal_model"]}
{"id": "C05", "title": "Selecting sub-periods returns exactly the periods inside", "statement": "For a consecutive list of periods and a period whose clipped ends coincide with boundaries in the list, the selected slice consists of exactly the list's periods that overlap the period, in order; when a clipped end is not a boundary an error is raised rather than a wrong slice; when there is no overlap the result is empty.", "quantifier": "all consecutive period lists and all query periods", "why_tests_cant": "The selection is done with index arithmetic on two different lists (start dates, all dates); only a proof covers all offsets.", "anchors": ["src/libecalc/common/time_utils.py: Period.get_period_indices, Period.get_periods"]}
{"id": "C06", "title": "Reporting periods cover the modelled time without gaps", "statement": "For every frequency, the reporting periods produced with start and end dates included form a consecutive partition from the (day of the) first modelled date to the (day of the) last modelled date whose inner boundaries are exactly the frequency dates strictly between them; with frequency NONE the periods are unchanged.", "quantifier": "all consecutive period lists, all frequencies, both include flags", "why_tests_cant": "Calendar start alignments relative to frequency dates are unbounded.", "anchors": ["src/libecalc/common/time_utils.py: resample_periods, create_start_and_end_dates_for_periods"]}
{"id": "C07", "title": "Stream-day and calendar-day rates convert back and forth without loss", "statement": "With a non-zero regularity, converting a calendar-day rate to stream-day and back (or the other way) returns the original series. Where regularity is zero the stream-day rate is defined as zero. Converting a rate that already has the requested type changes nothing. The number of values and the periods are unchanged.", "quantifier": "all rate series and all regularity series of the same length", "why_tests_cant": "Zero regularity entries and length mismatches at arbitrary positions.", "anchors": ["src/libecalc/common/utils/rates.py: Rates.to_stream_day, Rates.to_calendar_day, TimeSeriesRate.to_calendar_day, TimeSeriesRate.to_stream_day"]}
{"id": "C08", "title": "Cumulative volumes and period volumes are inverse views", "statement": "Accumulating period volumes and then taking period differences returns the original volumes and vice versa; the last cumulative value is the sum of all period volumes; with non-negative volumes the cumulative series never decreases.", "quantifier": "all volume series of any length", "why_tests_cant": "Induction over length; off-by-one in the leading zero only shows up on particular lengths.", "anchors": ["src/libecalc/common/utils/rates.py: TimeSeriesVolumes.cumulative, TimeSeriesVolumesCumulative.to_volumes, Rates.compute_cumulative"]}
{"id": "C09", "title": "Resampling volumes conserves the total volume", "statement": "Resampling a volume series to any coarser or finer reporting periods that start at or before the first and end at the last boundary keeps the total volume; each new period receives exactly the volume that falls inside it (time-proportional share of each overlapping original period).", "quantifier": "all volume series, all reporting boundaries", "why_tests_cant": "Conservation for all boundary sets is a telescoping/induction argument.", "anchors": ["src/libecalc/common/utils/rates.py: TimeSeriesVolumesCumulative.resample, TimeSeriesVolumes.resample"]}
{"id": "C10", "title": "Rates, durations and volumes agree", "statement": "Converting a rate to volumes multiplies with the number of days in each period and converting back with the same periods and regularity returns the original rate; resampling a rate series keeps the total produced volume.", "quantifier": "all rate series, all period lengths greater than zero, all regularities", "why_tests_cant": "All lengths and durations; conservation argument.", "anchors": ["src/libecalc/common/utils/rates.py: Rates.to_volumes, TimeSeriesVolumes.to_rate, TimeSeriesRate.to_volumes, TimeSeriesRate.resample"]}
{"id": "C11", "title": "A resampled validity flag is true only if every covered period is valid", "statement": "When a boolean series is resampled, a new period is true exactly when all original periods that overlap it are true, so an invalid calculation can never be hidden by reporting at a coarser frequency.", "quantifier": "all boolean series, all reporting boundaries within the original range", "why_tests_cant": "Off-by-one slices only show for particular alignments.", "anchors": ["src/libecalc/common/utils/rates.py: TimeSeriesBoolean.resample"]}
{"id": "C12", "title": "Adding rate series adds the calendar-day rates", "statement": "Adding two rate series of the same unit, type and periods gives a series whose calendar-day rate in every period is the sum of the two calendar-day rates; for equal regularity the stream-day rates add as well. Series with different units or rate types are rejected.", "quantifier": "all pairs of rate series and regularities", "why_tests_cant": "Weighted average of regularities has division corner cases.", "anchors": ["src/libecalc/common/utils/rates.py: TimeSeriesRate.__add__"]}
{"id": "C13", "title": "Slicing a time series to sub-periods and extending back restores it", "statement": "Splitting a series at any period boundary and extending the first part with the second gives back the original series; slicing keeps the value attached to each period; number of values always equals number of periods.", "quantifier": "all series, all cut points, all period lists", "why_tests_cant": "All cut points, all lengths.", "anchors": ["src/libecalc/common/utils/rates.py: TimeSeries.extend, TimeSeries.for_period, TimeSeries.__getitem__"]}
{"id": "C14", "title": "Unit conversions are reversible and consistent", "statement": "Whenever the conversion table supports both directions between two units, converting a value there and back returns the value; converting to the same unit is the identity; unsupported conversions raise an error; volume<->rate unit mappings are inverse.", "quantifier": "all unit pairs, all values", "why_tests_cant": "For-all over real values and the entire table, including the composition.", "anchors": ["src/libecalc/common/units.py: Unit.to, UNIT_CONVERTER registry, Unit.volume_to_rate, Unit.rate_to_volume"]}
{"id": "C15", "title": "The global time vector is sorted, duplicate free and inside the requested range", "statement": "The computed global time vector is strictly increasing, starts at the requested start (the earliest input date if none is given), ends at the requested end, contains every relevant input date and additional date strictly inside the range, and no date outside the range; it does not depend on the order in which the dates are listed; collections that do not influence the time vector contribute nothing; an empty set of inputs raises an error.", "quantifier": "all sets of time series dates, all start/end choices, all additional dates", "why_tests_cant": "Combination of filters and set unions; all orders.", "anchors": ["src/libecalc/presentation/yaml/mappers/variables_mapper/get_global_time_vector.py: get_global_time_vector"]}
{"id": "C16", "title": "Input time series are placed on the global time vector by their rule", "statement": "For every date of the global time vector within the series' dates the fitted value follows the interpolation rule (value at the previous date for RIGHT, at the next date for LEFT, straight line for LINEAR; the exact value at dates present in the series). Dates before the series get zero; dates after it get the last value if extrapolation is enabled and zero otherwise.", "quantifier": "all series, all target time vectors, all interpolation types and flags", "why_tests_cant": "All relative positions of target dates and source dates.", "anchors": ["src/libecalc/presentation/yaml/domain/time_series.py: TimeSeries.fit_to_time_vector, _interpolate, split_time_vector"]}
{"id": "C17", "title": "Variable definitions resolve independently of their order", "statement": "Evaluating user variables terminates for every reference graph; it succeeds exactly when the references are acyclic and all referenced names exist; the resulting values do not depend on the order in which variables are listed.", "quantifier": "all finite reference graphs and listing orders", "why_tests_cant": "The space of dependency graphs and orders is infinite.", "anchors": ["src/libecalc/presentation/yaml/mappers/variables_mapper/variables_mapper.py: _evaluate_variables, VariableProcessor.process"]}
{"id": "C18", "title": "Expressions are parsed with the documented precedence and associativity", "statement": "Printing any expression tree as tokens with the minimal parentheses demanded by precedence and associativity (or with more parentheses) and parsing the tokens gives back that tree, and evaluation gives the value of the tree. Unbalanced parentheses are rejected.", "quantifier": "all expression trees of any depth and all redundant parenthesisations", "why_tests_cant": "Infinite grammar; structural induction needed.", "anchors": ["src/libecalc/expression/expression_tree.py: get_postfix, get_tree, Node.evaluate", "src/libecalc/expression/expression_evaluator.py: lexer"]}
{"id": "C19", "title": "Evaluating an expression is period-wise", "statement": "The value of an expression in a period depends only on the variables' values in that period; the result has one value per period; restricting the variables to a sub-range and evaluating equals evaluating and restricting the result.", "quantifier": "all expressions, all variable maps, all sub-ranges", "why_tests_cant": "Structural induction on expressions for all slices.", "anchors": ["src/libecalc/expression/expression.py: Expression.evaluate", "src/libecalc/common/variables.py: VariablesMap.evaluate, VariablesMap.get_subset"]}
{"id": "C20", "title": "A time-varying expression is evaluated with the definition in force in each period", "statement": "Evaluating a temporal expression over the global periods gives, in each period, the value of the expression in force in that period, and zero where no definition is in force.", "quantifier": "all temporal expressions whose boundaries are on the global periods, all variable maps", "why_tests_cant": "All placements of definitions relative to the time vector.", "anchors": ["src/libecalc/common/variables.py: VariablesMap._evaluate_temporal"]}
{"id": "C21", "title": "Regularity is always a fraction", "statement": "A component's regularity series is accepted only if each value is between zero and one inclusive; when no regularity is specified it is one in every period; a specified value is used as specified.", "quantifier": "all regularity inputs", "why_tests_cant": "All values and positions.", "anchors": ["src/libecalc/domain/regularity.py: Regularity"]}
{"id": "C22", "title": "Conditions and masks switch consumption off exactly where they are false", "statement": "A masked time series equals the unmasked one in the periods where the condition holds (non-zero) and is zero in all other periods; multiple conditions act as logical AND.", "quantifier": "all series and condition series", "why_tests_cant": "All lengths and combinations.", "anchors": ["src/libecalc/presentation/yaml/domain/time_series_mask.py: TimeSeriesMask", "src/libecalc/presentation/yaml/domain/time_series_expression.py: TimeSeriesExpression"]}
{"id": "C23", "title": "Power loss factor scales consumption and never divides by zero silently", "statement": "With a power loss factor f the reported energy usage is usage/(1-f) for every period, so that the useful part is the original usage; without a factor the usage is unchanged; usage never decreases for 0<=f<1.", "quantifier": "all usage series and loss factors", "why_tests_cant": "All values.", "anchors": ["src/libecalc/presentation/yaml/domain/expression_time_series_power_loss_factor.py: apply"]}
{"id": "C24", "title": "A consumer system uses the first operational setting that works", "statement": "For each period the operational setting reported as used by a consumer system is the first setting in the listed order for which all consumers are valid; if none is valid the last setting is used; and the result reported for each consumer is the result of the chosen setting in that period.", "quantifier": "all numbers of settings, all validity patterns, all numbers of periods", "why_tests_cant": "Exponential number of patterns.", "anchors": ["src/libecalc/domain/infrastructure/energy_components/legacy_consumer/system/utils.py: get_operational_settings_number_used_from_model_results", "src/libecalc/domain/infrastructure/energy_components/legacy_consumer/system/consumer_function.py: ConsumerSystemConsumerFunction.evaluate"]}
{"id": "C25", "title": "Cross-over moves rate between consumers but never creates or loses any", "statement": "With cross-over defined in a consumer system, the total rate over consumers after cross-over equals the total before in every period, no consumer's rate becomes negative, and a consumer that sends its excess ends with at most its maximum rate when it received nothing.", "quantifier": "all systems, cross-over assignments, rates, maximum rates, pressures", "why_tests_cant": "Sequential re-distribution over an arbitrary number of consumers.", "anchors": ["src/libecalc/domain/infrastructure/energy_components/legacy_consumer/system/consumer_function.py: cross-over"]}
{"id": "C26", "title": "Priority optimisation picks the first feasible priority", "statement": "The priority optimiser reports the first priority in order whose results are all valid, and the last priority when none is; the reported consumer results are those of that priority, and later priorities have no influence.", "quantifier": "all priority lists, evaluators and validity patterns", "why_tests_cant": "Exponential number of patterns.", "anchors": ["src/libecalc/common/priority_optimizer.py: PriorityOptimizer.optimize"]}
{"id": "C27", "title": "Bisection searches return a point that was accepted and bracket the boundary", "statement": "For a predicate that changes truth at most once on the interval, the boundary search returns a point at which the predicate was true and which is within the tolerance of the boundary, or reports that no such point exists; the number of evaluations is bounded by the iteration limit.", "quantifier": "all predicates, intervals, tolerances, iteration limits", "why_tests_cant": "Continuum of predicates; invariant on the bracket.", "anchors": ["src/libecalc/process/process_solver/search_strategies.py: BinarySearchStrategy, lowest_true, highest_true"]}
{"id": "C28", "title": "Adaptive pressure damping stays in its bounds", "statement": "During adaptive pressure updates the damping factor stays within its fixed lower and upper bound whatever sequence of proposed pressures occurs, and each updated pressure lies between the old and the proposed pressure.", "quantifier": "all sequences of updates", "why_tests_cant": "Unbounded histories.", "anchors": ["src/libecalc/common/numeric_methods.py: DampState, adaptive_pressure_update"]}
{"id": "C29", "title": "Turbine fuel use is non-negative, zero at no load, and overload is flagged", "statement": "A turbine with zero load uses no fuel; fuel usage is never negative for non-negative load; a load above the turbine's usable maximum is always reported as exceeding the maximum.", "quantifier": "all turbine tables, adjustment factors/constants, loads", "why_tests_cant": "Continuum of loads and adjustments.", "anchors": ["src/libecalc/domain/infrastructure/energy_components/turbine/turbine.py: Turbine"]}
{"id": "C30", "title": "A generator set never reports an overload as valid", "statement": "A generator set period is reported valid only if the requested power can be delivered (capacity margin non-negative and a fuel value exists); fuel usage is zero when power is zero; reported fuel contains no missing values; in a period without a generator set in force it repeats the period before (zero in the first period); fuel usage is between table bounds for positive power.", "quantifier": "all generator tables, temporal models and power series", "why_tests_cant": "All combinations of tables and power requirement.", "anchors": ["src/libecalc/domain/infrastructure/energy_components/generator_set/generator_set_component.py: evaluate_process_model", "src/libecalc/domain/infrastructure/energy_components/generator_set/generator_set_model.py: GeneratorSetModel"]}
{"id": "C31", "title": "Fuel emissions are fuel rate times factor, for the fuel in force", "statement": "For each emission and period the emission rate equals fuel rate times the factor of the fuel in force in that period (converted from kg to tonnes); zero where the fuel in force does not list the emission; no period is counted twice.", "quantifier": "all temporal fuel models, factor expressions and fuel series", "why_tests_cant": "All placements of temporal fuel changes.", "anchors": ["src/libecalc/domain/infrastructure/energy_components/fuel_model/fuel_model.py: FuelModel.evaluate_emissions"]}
{"id": "C32", "title": "Venting emissions account for every listed emission", "statement": "For a direct venting emitter, every listed emission contributes its rate (converted to tonnes per day, stream-day) to the reported emissions; for an oil venting emitter the emission is oil rate times factor.", "quantifier": "all emitters and emission lists", "why_tests_cant": "All lists incl. repeated names.", "anchors": ["src/libecalc/domain/infrastructure/emitters/venting_emitter.py: DirectVentingEmitter, OilVentingEmitter"]}
{"id": "C33", "title": "Component graph traversal is complete", "statement": "The component graph's successor/predecessor queries agree with the nodes and edges added; looking up a node gives the node last added under that id; the topological ordering lists each node once, after all its predecessors, and fails on a cycle; the single-predecessor query returns the unique predecessor, nothing for a root, and an error for several; all-successors lists exactly what is reachable; breadth-first order is by distance from the root.", "quantifier": "all sequences of node/edge insertions", "why_tests_cant": "Unbounded histories.", "anchors": ["src/libecalc/common/graph.py: Graph"]}
{"id": "C34", "title": "Versions are totally ordered and survive printing", "statement": "Version comparison is a total order consistent with numeric comparison of major, minor, patch; printing a version and parsing it gives an equal version; a string is read as major.minor.patch exactly when it has that shape, and every other string is read as 0.0.0.", "quantifier": "all versions", "why_tests_cant": "Infinite set.", "anchors": ["src/libecalc/common/version.py: Version"]}
{"id": "C35", "title": "Duplicate detection finds exactly the repeated names", "statement": "The set of duplicates reported for a list of names is exactly the set of names that occur at least twice; the asset validators reject exactly the assets with a repeated component name (when the model is named), a repeated time-series collection name, or a repeated name among the referable sections.", "quantifier": "all lists of names", "why_tests_cant": "All lists.", "anchors": ["src/libecalc/common/string/string_utils.py: get_duplicates"]}
{"id": "C36", "title": "The fluid cache is a bounded most-recently-used map", "statement": "After any sequence of cache operations, the cache holds at most max_size entries, a lookup returns the last value stored for the key if the key is among the max_size most recently used keys, and a miss otherwise; hit/miss/eviction counters equal the number of hits, misses and evictions since clear; creating a cache under a used name returns the existing one; clearing empties exactly the caches named.", "quantifier": "all operation histories, all sizes", "why_tests_cant": "Unbounded histories.", "anchors": ["src/ecalc_neqsim_wrapper/cache_service.py: LRUCache"]}
{"id": "C37", "title": "Distributing a common stream conserves the total rate", "statement": "Distribution of a common inlet stream over items with overflow moves rate only along declared overflows and conserves the total rate; no item ends with negative rate; an item with declared overflow ends with at most its capacity; without overflow every item gets its share in the declared order.", "quantifier": "all item lists, shares, overflow graphs, capacities", "why_tests_cant": "All graphs and orders.", "anchors": ["src/libecalc/process/stream_distribution/common_stream_distribution.py: CommonStreamDistribution"]}
{"id": "C38", "title": "Solver configurations combine predictably", "statement": "Merging two solver configurations lets the second override the first per unit, keeps every other setting, never lists a unit twice and is associative; combining solutions stops at the first failure.", "quantifier": "all configuration lists", "why_tests_cant": "All lists.", "anchors": ["src/libecalc/process/process_solver/configuration.py: merge_configurations", "src/libecalc/process/process_solver/solver.py: Solution.combine"]}
{"id": "C39", "title": "Tolerance comparisons are mutually exclusive and exhaustive", "statement": "For any constraint value and any number exactly one of 'less', 'equal', 'greater' holds, and <=, >= , != are the corresponding combinations.", "quantifier": "all values and tolerances", "why_tests_cant": "Real-valued for-all.", "anchors": ["src/libecalc/process/process_solver/float_constraint.py: FloatConstraint"]}
{"id": "C40", "title": "Chokes never raise pressure and hit the target when feasible", "statement": "A choke's outlet pressure is inlet minus pressure drop, a zero drop leaves the stream unchanged, a drop larger than the inlet pressure is an error; the downstream choke solution yields exactly the target outlet pressure when the target is reachable and reports failure otherwise.", "quantifier": "all streams and pressures", "why_tests_cant": "Real-valued for-all.", "anchors": ["src/libecalc/process/process_units/choke.py: Choke", "src/libecalc/process/process_solver/finders/choke_delta_pressure_finders.py"]}
{"id": "C41", "title": "Recirculation leaves the net rate unchanged", "statement": "A recirculation loop adds a rate in front of a compressor and removes the same rate behind it, so the rate leaving the loop equals the rate entering it, and the recirculation range returned for a compressor is exactly the rates that bring it inside its capacity.", "quantifier": "all streams, loop rates, nested loops", "why_tests_cant": "All compositions.", "anchors": ["src/libecalc/process/process_solver/recirculation_loop.py", "src/libecalc/process/process_units/compressor.py: get_recirculation_range"]}
{"id": "C42", "title": "Mixing streams conserves mass, energy and moles", "statement": "Mixing streams gives a stream whose mass rate is the sum, whose pressure is the lowest inlet pressure, whose enthalpy flow is the sum of enthalpy flows, whose component molar flows are the sums of the inlets' and whose composition is normalised; mixing nothing, zero total rate or incompatible models is an error.", "quantifier": "all lists of streams", "why_tests_cant": "All lists of streams and compositions.", "anchors": ["src/libecalc/process/fluid_stream/stream_mixer.py: mix_streams", "src/libecalc/process/fluid_stream/fluid_model.py: FluidComposition"]}
{"id": "C43", "title": "Partitioning a process train keeps every unit in order", "statement": "Splitting a process train into pressure sections keeps every unit exactly once and in order, ends each section at the unit carrying its outlet constraint, and rejects unknown or duplicate constraints.", "quantifier": "all unit lists and constraint lists", "why_tests_cant": "All lists.", "anchors": ["src/libecalc/presentation/yaml/mappers/process/process_partitioner.py: partition"]}
{"id": "C44", "title": "Pipeline connections chain the units", "statement": "The connections generated for a pipeline link each unit to the next one in order across section borders and nothing else.", "quantifier": "all pipelines", "why_tests_cant": "All section shapes incl. empty.", "anchors": ["src/libecalc/process/process_pipeline/process_pipeline.py: _create_process_unit_connections"]}
{"id": "C45", "title": "Shaft speed rules", "statement": "All compressors on a shaft share one speed; the allowed speed range is exactly the speeds allowed for every compressor; a fixed-speed shaft keeps the first speed set whatever is attempted later.", "quantifier": "all compressor sets and sequences of speed settings", "why_tests_cant": "Histories.", "anchors": ["src/libecalc/process/shaft.py: Shaft.get_speed_boundary, SingleSpeedShaft.set_speed"]}
{"id": "C46", "title": "The delta profile is the difference of two results on common periods", "statement": "The delta profile of two results holds, for each component and period, changed minus reference; components present in only one result are compared with zero; comparing a result with itself gives zero everywhere; swapping changes the sign.", "quantifier": "all pairs of results", "why_tests_cant": "All pairs of results with arbitrary component sets and periods.", "anchors": ["src/libecalc/presentation/simple_result/simple.py: SimpleResultData.delta_profile, subtract, normalize_components"]}
{"id": "C47", "title": "Exported totals are sums over the installation's consumers", "statement": "An exported column for an installation and category is in each reporting period the sum over exactly the consumers in that category; every consumer is counted in exactly one category group.", "quantifier": "all installations, categories and periods", "why_tests_cant": "All shapes.", "anchors": ["src/libecalc/presentation/exporter/queries.py: FuelQuery", "src/libecalc/presentation/exporter/aggregators.py"]}
{"id": "C48", "title": "Resource columns are found by name", "statement": "Looking up a column by header returns the column under the matching header and raises an error when the header is absent; the number of columns equals the number of headers.", "quantifier": "all resources", "why_tests_cant": "All tables.", "anchors": ["src/libecalc/presentation/yaml/yaml_entities.py: MemoryResource"]}
{"id": "C49", "title": "The secant fallback never leaves the interval and is exact for straight lines", "statement": "When the fallback root finder returns, its result lies in the given interval; it evaluates the function at points of the interval only and at most twice per allowed iteration; for a function that is a straight line with its root in the interval it returns exactly the root; equal function values at both ends are an error, not a result.", "quantifier": "all functions, intervals, tolerances and iteration limits", "why_tests_cant": "Continuum of functions; invariant on the iterates.", "anchors": ["src/libecalc/common/numeric_methods.py: secant_method"]}
{"id": "C50", "title": "Emission intensity is emitted mass over exported volume", "statement": "The intensity of a period is the mass emitted in it divided by the volume exported in it, converted to kg per Sm3 or kg per barrel of oil equivalent with one fixed factor; no export gives no intensity, not a number; the cumulative intensity is the ratio of the running totals and equals the export-weighted average of the periods' intensities.", "quantifier": "all emission and export profiles", "why_tests_cant": "Sums over arbitrary profiles; algebraic identity over all rationals.", "anchors": ["src/libecalc/domain/emission/emission_intensity.py", "src/ecalc_cli/emission_intensity.py", "src/libecalc/common/utils/rates.py: TimeSeriesVolumes.__truediv__"]}
{"id": "C51", "title": "A consumer reports in every period what the model in force then computed", "statement": "When a consumer's energy model changes over time, its reported usage, power and validity in a period are those of the model whose period contains it, after the power loss factor; periods no model covers get the fill value (zero usage, valid, setting 0); models with differing units or with gaps between them are refused; the operational setting used is reported one-based.", "quantifier": "all sequences of energy models and all reporting periods", "why_tests_cant": "Quantifies over arbitrary partitions of time among models and arbitrary results per model.", "anchors": ["src/libecalc/domain/infrastructure/energy_components/legacy_consumer/consumer_function/results.py", "src/libecalc/domain/infrastructure/energy_components/legacy_consumer/component.py"]}
{"id": "C52", "title": "A tabulated consumer's usage is interpolated from its table and invalid outside it", "statement": "The usage of a consumer given by a table with one variable is, for a variable value within the table, the linear interpolation between the two neighbouring rows (the row itself at a tabulated value), whatever the order of rows and columns; outside the table the usage is not a number and the period invalid; tables without a POWER or FUEL column, with columns of different lengths, or evaluated for other variables are errors.", "quantifier": "all tables with one variable and all variable values", "why_tests_cant": "Continuum of variable values and tables.", "anchors": ["src/libecalc/domain/infrastructure/energy_components/legacy_consumer/tabulated/tabular_energy_function.py", "src/libecalc/domain/infrastructure/energy_components/legacy_consumer/tabulated/tabular_consumer_function.py"]}
{"id": "C53", "title": "Installation and asset totals are the sums over their components", "statement": "An installation's power (electrical, mechanical and both), fuel usage, emissions per name, and their cumulative amounts are in every period the sums over its consumers and emitters; every asset figure is the sum of that figure over the installations, whatever the regularities; an emission is reported exactly when some emitter has it; there is no power total exactly when no consumer has power; an installation or asset is valid in a period exactly when everything inside it is.", "quantifier": "all assets, installations, consumers, emitters, periods and regularities", "why_tests_cant": "Quantifies over all structures; the asset is summed consumer by consumer with weighted regularities, the installations separately, and agreement is an algebraic fact.", "anchors": ["src/libecalc/presentation/json_result/mapper.py: InstallationMapper, get_asset_result", "src/libecalc/presentation/yaml/model.py: get_validity", "src/libecalc/domain/infrastructure/energy_components/installation/installation.py"]}
{"id": "C54", "title": "The recirculation rate finder returns a rate that works, and its failures are genuine", "statement": "Whatever the simulation does, the smallest and the largest recirculation rate found are in the range, the simulation succeeds at both, and the smallest is not above the largest. Without a target the finder returns the smallest rate. With a target, a success has an outlet pressure within the tolerance of the target (or of the root finder), 'too low' is reported with the smallest rate and the pressure there, 'too high' with the largest. If more recirculation takes the compressor from surge through capacity to stonewall and never raises the pressure, a failure means that no rate in capacity meets the target, up to the resolution of the search; and if the window within capacity is wider than that resolution the finder always answers and the root finder is only called on a bracket with a sign change on which the simulation succeeds.", "quantifier": "all simulations (functions from rate to outlet pressure or error), ranges, targets, tolerances, iteration counts and root finders satisfying the stated contract", "why_tests_cant": "the promise is about every compressor behaviour and every range; tests use a few charts and targets, and cannot show that the bracket handed to the root finder always has a sign change", "anchors": ["src/libecalc/process/process_solver/finders/recirculation_loop_rate_finder.py", "src/libecalc/process/process_solver/search_strategies.py"]}
{"id": "C55", "title": "The shaft speed finder returns a speed that works, and its failures say what happened", "statement": "Whatever the simulation does: the reported speed is in the range; a success has an outlet pressure within the tolerance of the root finder of the target; 'too low' is reported at the largest usable speed and 'too high' at the smallest, each with the pressure there; surge, stonewall and insufficient inlet pressure are the error at the reported end of the range; the search is repeated at most once after a failed equation of state; the assertion in the code never fires. If pressure never falls with speed, after 'too low' no speed reaches the target and after 'too high' every speed exceeds it, up to the resolution of the search.", "quantifier": "all simulations (functions from speed to outlet pressure or error), speed ranges, targets, tolerances, iteration counts and root finders satisfying the stated contract", "why_tests_cant": "tests run a handful of charts; they cannot show that the recursion ends, that the assertion is unreachable, or that a reported failure is genuine for every chart", "anchors": ["src/libecalc/process/process_solver/finders/shaft_speed_finder.py", "src/libecalc/process/process_solver/search_strategies.py"]}
{"id": "C56", "title": "A chart curve is the polyline through its points, and a control margin removes its left part", "statement": "A curve is accepted exactly when its columns have equal length, at least two points and efficiencies between 0 and 1. Head and efficiency at a rate within the curve are the linear interpolation between the two neighbouring points (the points themselves at given rates), outside they are those of the nearest end; if heads do not rise with rate the head function does not either; if they fall strictly rate and head are inverse functions. A control margin strictly between 0 and 1 moves the smallest rate by that fraction of the width and changes neither head nor efficiency at any remaining rate. Efficiencies of a chart lie between the smallest and largest efficiency of its points whatever the geometry of the nearest curves; a point between curves gets the efficiencies of the closest curve above and the closest below, weighted by closeness, a point outside that of the closest curve.", "quantifier": "all curves, charts, margins, rates and heads", "why_tests_cant": "continuum of rates, margins and curve shapes", "anchors": ["src/libecalc/domain/process/value_objects/chart/base.py: ChartCurve", "src/libecalc/domain/process/value_objects/chart/chart.py: Chart", "src/libecalc/presentation/yaml/mappers/charts/user_defined_chart_data.py"]}
{"id": "C57", "title": "A pump delivers the requested mass at the required pressure or says why not", "statement": "A pump accepted by the constructor fails only for a required pressure that is not positive. Without flow it uses no power and passes the stream on. With flow it runs at the smallest rate covering the request, the minimum flow and the minimum flow line, and at the smallest head covering the required head and the minimum head line; it delivers at least the required pressure and the choke removes the rest; the status tells exactly whether head or rate are above the chart; power is hydraulic power over an efficiency in (0,1] and at least the hydraulic power of the duty; the speed divides neighbouring speeds as the head divides their heads, and a valid single-speed operating point is on the curve. The streams on the five connections conserve mass and end at the required pressure; a simulation evaluates every input on its own.", "quantifier": "all charts, streams, required pressures and input series, whatever the nearest-curve geometry", "why_tests_cant": "continuum of streams, charts and pressures", "anchors": ["src/libecalc/process/pump/pump.py", "src/libecalc/process/pump/liquid_stream.py", "src/libecalc/process/pump/pump_process_simulation.py", "src/libecalc/presentation/yaml/mappers/pump_process_simulation_mapper.py"]}
{"id": "C58", "title": "The envelope of a chart is the one a user draws", "statement": "The minimum flow line is straight between the first points of the slowest and the fastest curve and constant outside; the minimum head line is the slowest curve followed by the straight stone wall to the last point of the fastest curve; the largest rate at a head is the point of the fastest curve with that head, with the end points outside; the rate limits at a speed are those of the curve at that speed and divide the ends of the neighbouring curves in proportion between; the neighbouring curves of a speed are the fastest not above and the slowest not below. If the slowest curve is nowhere above the fastest, the minimum head is nowhere above the maximum head and a running pump is valid exactly when the required head is not above the fastest curve and the rate not beyond the chart.", "quantifier": "all charts (with the stated order of points) and all rates, heads and speeds", "why_tests_cant": "continuum of charts and points", "anchors": ["src/libecalc/domain/process/value_objects/chart/chart.py: Chart", "src/libecalc/process/pump/pump.py"]}
{"id": "C59", "title": "The pump of a consumer function agrees with the process pump", "statement": "Every period is evaluated on its own, arrays of unequal length are refused. Without flow there is no power and no failure. With flow, and chart limits large enough for 1e-15 not to matter, power and status are those of the process pump on the same chart with the same conditions; a head margin accepts exactly the heads up to that margin above the chart and puts them on the chart; for a required head on the fastest curve the announced largest rate is pumped without failure and every larger rate fails; so for the process pump, whose minimum flow is not above it.", "quantifier": "all charts, rates, pressures, densities, margins and series", "why_tests_cant": "agreement of two implementations over a continuum of inputs", "anchors": ["src/libecalc/domain/process/pump/pump.py", "src/libecalc/domain/process/core/results/pump.py", "src/libecalc/process/pump/pump.py"]}
{"id": "C60", "title": "Scrubbing keeps exactly the gas; cooling changes only the temperature; direct mixing is undone by splitting", "statement": "The liquid remover returns the gas phase of a two-phase stream with exactly the mass of the gas (moles of gas kept, liquid gone), leaves a dry stream as it is, and scrubbing twice is scrubbing once; the temperature setter changes the temperature and nothing else and refuses what the fluid service refuses; mixing a rate in directly and splitting the same rate off again returns the mass and composition of the original stream.", "quantifier": "all fluid services satisfying the stated law, all streams and all rates", "why_tests_cant": "quantifies over fluid packages and a continuum of streams; tests use one fluid service", "anchors": ["src/libecalc/process/process_units/liquid_remover.py", "src/libecalc/process/process_units/temperature_setter.py", "src/libecalc/process/process_units/direct_mixer.py", "src/libecalc/process/process_units/direct_splitter.py"]}
{"id": "C61", "title": "A compressor chart's capacity verdict is that of the corrected point", "statement": "A point is moved right to the minimum flow line and, where choking is allowed, up to the minimum head line, by the least amount, and the flags say exactly whether it was moved. With choking the point is within capacity exactly when the moved point is inside the envelope; without choking exactly when moreover it is not below the minimum head line, the stone wall being the straight line between the last points of the slowest and the fastest curve. Correcting a corrected point changes nothing.", "quantifier": "all charts of the stated shape, all rates and heads", "why_tests_cant": "continuum of charts and points; the code compares partly with the uncorrected rate, so equivalence with the envelope is a geometric argument", "anchors": ["src/libecalc/domain/process/value_objects/chart/compressor/compressor_chart.py: evaluate_capacity_and_extrapolate_below_minimum, get_maximum_rate", "src/libecalc/domain/process/value_objects/chart/chart.py: Chart"]}
{"id": "C62", "title": "A compressor chart has one head and efficiency per speed and rate, and accepts exactly the operable points", "statement": "Within the speed and rate limits the head and efficiency are the mix, in proportion to the speed, of the two neighbouring curves at the same fraction of their widths; this is one value with no jump at a curve, does not rise with rate if the curves do not, and stays within the given points. A point is valid exactly when the speed is in the chart (or below it and choking is allowed), the rate at least the minimum (or recirculation is allowed) and at most the maximum; otherwise it has no value (speed) or the values at the ends of the curves (rate), and the area names the violated side. Two deviations are exhibited: no flow without recirculation raises an error, and flow through the machine above the chart is accepted at a curve but an error between curves.", "quantifier": "all charts with distinct speeds and increasing rates, all speeds, rates and options", "why_tests_cant": "continuum of charts, speeds and rates; uniqueness, monotonicity and the equivalence cannot be sampled", "anchors": ["src/libecalc/domain/process/value_objects/chart/compressor/compressor_chart.py: calculate_polytropic_head_and_efficiency_single_point"]}
{"id": "C63", "title": "The generic compressor chart of a design point is the unified chart stretched to it", "statement": "For every chart, stretching it along the rate and head axes stretches the corrected points and changes no capacity flag. The chart of a design point exists exactly for an efficiency between 0 and 1, passes through the points of the unified curves stretched to the design point, has that efficiency everywhere, has the ordinary shape for which capacity means inside the envelope, and its design point is within capacity and needs no correction.", "quantifier": "all charts and stretching factors; all positive design rates and heads, all efficiencies", "why_tests_cant": "continuum of design points; invariance under stretching is a statement about every chart and point", "anchors": ["src/libecalc/domain/process/value_objects/chart/compressor/chart_creator.py: from_rate_and_head_design_point", "src/libecalc/domain/process/value_objects/chart/compressor/generic_chart_data.py"]}
{"id": "C64", "title": "The generic chart made from input points covers all of them", "statement": "For every non-empty set of points with some flow and some head and every efficiency between 0 and 1, the search ends (within 60 passes of its loop) and yields a chart on which every point is within capacity when recirculation and choking are allowed; the largest rate and head of the chart are at least those of the points and at most 60 % and 48 % larger. In exact arithmetic the step that subtracts a head from a rate (chart_creator.py:176) subtracts zero. Without choking a point may remain below the stone wall.", "quantifier": "all finite sets of points, all efficiencies", "why_tests_cant": "a search with nested bisections over a continuum of inputs; tests use a few point sets and snapshots", "anchors": ["src/libecalc/domain/process/value_objects/chart/compressor/chart_creator.py: from_rate_and_head_values", "src/libecalc/common/numeric_methods.py: maximize_x_given_boolean_condition_function"]}
{"id": "C65", "title": "An expression is split into its longest pieces in order, line by line, and survives being written out", "statement": "Reading a string yields exactly the tokens of the lexical grammar: at each position the longest beginning in the first lexical class that has one, blanks and comments skipped, and the string is refused exactly when at some position no class matches. Lines, and words outside comments, are read independently of each other. Writing an expression out and reading it back gives the same tokens (hence the same value), also for a product of expressions, provided its numbers print in the accepted notation. The variables of an expression are exactly the references in its text, in order. Deviations exhibited: a negative factor of a product is written in a form that is refused, and a number with two digits before its exponent inside an expression is read as a number and a reference.", "quantifier": "all strings, all token lists, all number parsers and printers with the stated laws", "why_tests_cant": "all strings are infinitely many; tests read and print a few", "anchors": ["src/libecalc/expression/expression_evaluator.py: lex, lexer, Token", "src/libecalc/expression/expression.py: Expression.__str__, validate, multiply"]}
{"id": "C66", "title": "A compressor stage conserves mass and books recirculation", "statement": "For a stage of a compressor train (splitter, mixer, choke, cooler, scrubber, rate modifier, compressor): the rate modifier obeys the last setting and never two at once. The flow through the compressor is the larger of the least flow of the chart and what is wanted (the stage flow plus the set mass rate, or plus the set fraction of the available capacity). The stage delivers exactly the mass rate that entered ahead of the compressor. The power is the net power plus the recirculation loss that is reported. Splitting and mixing conserve mass, and the stream ahead of the compressor has the stage's temperature and the pressure less the pressure drop. Evaluating leaves the stage as it was. A stage is within capacity exactly when the machine finds its point inside the chart or calls it valid.", "quantifier": "all streams, chart limits, modifier settings, splitter and mixer rates, machines and fluid services with the stated laws", "why_tests_cant": "flows and settings are real numbers and sequences of settings are unbounded; tests try a few", "anchors": ["src/libecalc/domain/process/compressor/core/train/stage.py: evaluate, get_compressor_inlet_stream", "src/libecalc/domain/process/entities/process_units/rate_modifier", "src/libecalc/domain/process/entities/process_units/legacy_splitter", "src/libecalc/domain/process/entities/process_units/legacy_mixer"]}
{"id": "C67", "title": "Streams of a compressor train go to their stages, and cutting a train changes nothing", "statement": "For a train with any number of outlets and inlets at any of its stages: the rates given for the ports, in the order of the stages with outlets ahead of inlets, reach the splitter and mixer of their own stage. A set of rates is refused exactly when the flow through some stage would be negative. A train is run exactly when something enters it, at the inlet or between stages; otherwise there is no result. When the train is cut ahead of a stage, the first part gets its own rates and the last part gets its own rates with what passes through the first part at its inlet, and the stages of the two parts at one speed and with the same settings run exactly as they do in the whole train.", "quantifier": "all trains, numbers of side streams per stage, rates, cut positions, speeds and modifier settings", "why_tests_cant": "numbers of stages and ports are unbounded and the rates are real numbers; tests use one or two layouts", "anchors": ["src/libecalc/domain/process/compressor/core/train/compressor_train_common_shaft.py: calculate_compressor_train, split_rates_on_stage_number, split_train_on_stage_number, _validate_nonnegative_stage_rates", "src/libecalc/domain/process/compressor/core/train/base.py: _make_ports_from_splitters_and_mixers"]}
{"id": "C68", "title": "The status of a train result tells the truth about pressures, capacity and power", "statement": "The target pressure status of a result is decided by the pressures of that result within one in a thousand: it is 'met' exactly when the first stage sucks at no more than is there, the discharge pressure is near its target, and the intermediate pressure, if there is a target and a pressure, is near its target; otherwise it names the first deviation. The failure status names the first stage out of capacity, then the pressure deviation, then the power. A result is valid exactly when all stages are within capacity, no pressure is off, and the power limit is not exceeded. A power limit of 0 is no limit. The chart area of a result is that of the first stage with an invalid point; if there is none, it is 'no flow' when some stage has that, else that of the first stage.", "quantifier": "all results, pressures, targets and limits; all trains and speeds", "why_tests_cant": "statuses are decided by comparisons over a continuum of pressures and lists of stages of any length", "anchors": ["src/libecalc/domain/process/compressor/core/train/base.py: check_target_pressures", "src/libecalc/domain/process/compressor/core/results.py: CompressorTrainResultSingleTimeStep.failure_status, is_valid, within_capacity"]}
{"id": "C69", "title": "The shaft speed found is one that all stages can have, and is as low as needed; time steps do not influence each other", "statement": "A train has exactly the speeds that all its stages have. The speed search returns a speed within the bounds, those of the train narrowed by those given, and one of: the highest, out of capacity; the highest, with too little pressure; the lowest speed within capacity, with too much pressure; or what the root finder returns between the two. Consequently, if the root finder converges, the evaluated train meets the target or its status states why not, and a target no speed reaches is reported as such at the highest speed. Evaluating a time step gives the same result whatever was evaluated before, so a series of time steps gives the results of the single steps.", "quantifier": "all trains, all root finders that stay in their bracket, all inputs and histories, time series of any length", "why_tests_cant": "history independence quantifies over all earlier evaluations; the search runs over a continuum", "anchors": ["src/libecalc/domain/process/compressor/core/train/compressor_train_common_shaft.py: find_fixed_shaft_speed_given_constraints, evaluate_given_constraints", "src/libecalc/domain/process/compressor/core/train/base.py: evaluate, minimum_speed, maximum_speed"]}
{"id": "C70", "title": "With pressure control, a valid result is on target whatever the control", "statement": "For each of the five pressure controls: when an evaluation with one target returns a valid result, its discharge pressure is near the target, its suction pressure is the one given, all stages are within capacity, and the speed is one that all stages can have and that the shaft has. A downstream choke leaves the machines alone and only lowers the pressure; with a limit ahead of it the last machine stays below that limit, up to the error of the root finder. An upstream choke changes the pressure ahead of the first stage only, and the status is 'met' exactly when that pressure is not above what is there. Anti-surge control recirculates the same fraction in all stages, the same mass rate in all stages, or gives all stages the same pressure ratio, with the extreme settings exactly when the target is out of reach. With a common valve the total flow is searched between a flow that is at least the one asked for and the least flow of the first machine, at which all machines have the same mass rate, and the largest flow of the first machine; recirculation is not negative unless those are in the wrong order; and the plain rate is kept only when the mass rates differ at both ends and all tenths between. Deviations exhibited: with equal pressure ratios side streams taken out are ignored (gas to be taken out is compressed) and the power limit is not applied; with a limit ahead of a downstream choke the power status is that of the machines without that limit.", "quantifier": "all trains, pressure controls, inputs, and root finders that stay in their bracket", "why_tests_cant": "continuum of inputs and trains of any length; the deviations show in combinations that no test makes", "anchors": ["src/libecalc/domain/process/compressor/core/train/compressor_train_common_shaft.py: evaluate_with_pressure_control_given_constraints and the five methods it calls", "src/libecalc/domain/process/compressor/core/train/stage.py: evaluate_given_speed_and_target_discharge_pressure"]}
{"id": "C71", "title": "With a pressure between two stages, one shaft speed serves both parts, and a valid result meets both targets", "statement": "For a train with a target between two stages: all stages run at one speed that all can have, the higher one of the speeds that the two parts need. A valid result has the discharge pressure near its target, the pressure after the stage ahead of the cut near its target, all stages within capacity, and no more power than the limit. The part that needs the lower speed is under pressure control; the other one runs without, from fresh settings, unless at the lowest speed; the settings of the first part precede those of the last. Deviations exhibited: the limit on the pressure ahead of a downstream choke has no effect; with a downstream choke on the first part a result on target in all respects is not valid, since the pressure ahead of the choke is compared with the target; and with a choke on the last part and fewer stages behind the cut than ahead of it the evaluation raises IndexError.", "quantifier": "all trains, cut positions, controls, inputs, and root finders that stay in their bracket", "why_tests_cant": "continuum of inputs, any number of stages; the crash needs three stages with a cut after the second", "anchors": ["src/libecalc/domain/process/compressor/core/train/compressor_train_common_shaft.py: find_and_calculate_for_compressor_train_with_two_pressure_requirements"]}
{"id": "C72", "title": "The maximum rate announced for a compressor train can be taken, and hardly more", "statement": "For a train with a downstream choke whose machines behave as usual (less flow gives no less pressure and stays within capacity, more speed gives no less of either): the maximum rate is one in a thousand below a rate that is within capacity at the highest speed; a rate just above it is the chart's largest, or cannot be taken to the target; or the pressure of that rate is the target and no higher rate at any speed gives more. Evaluating the train at the announced rate gives a valid result on target. If 0 is announced, no rate from the least flow of the first stage on can be taken. With an upstream choke the rate found evaluates within capacity. Without choke it is the flow of the first stage along the limit of the chart at a speed in the range of the train, or along the highest speed. With a power limit, the power at the announced rate is within it. For trains without control or with a choke the answer does not depend on earlier evaluations. Deviations exhibited: with anti-surge control it does, since the valves keep the settings of the last evaluation; and 0 is announced for a train that takes positive rates when the least flow of the first stage is too much for another stage.", "quantifier": "all trains, inputs, histories of evaluations, and root finders that stay in their bracket", "why_tests_cant": "optimality and history independence quantify over all rates, speeds and earlier evaluations", "anchors": ["src/libecalc/domain/process/compressor/core/train/compressor_train_common_shaft.py: _get_max_std_rate_single_timestep", "src/libecalc/domain/process/compressor/core/train/base.py: get_max_standard_rate"]}
{"id": "C73", "title": "Solving a section carries nothing over from earlier evaluations", "statement": "For a section all of whose recirculation loops and chokes belong to its anti-surge and pressure control: the solution found for a target and an inlet stream is the same whatever the shaft, the loops and the choke were set to before, hence the same after any sequence of earlier evaluations with other targets and streams, successful or not; and likewise every outlet pressure seen by the speed search does not depend on what was tried before it. Handlers of other sections are left as they are. If a choke or a loop of the section is not controlled, the result does depend on what it was set to (exhibited).", "quantifier": "all sections, pressure controls, fluid services, root finders, targets, streams, settings and histories", "why_tests_cant": "quantifies over all histories of the mutable shafts, loops and chokes", "anchors": ["src/libecalc/process/process_solver/pipeline_section_solver.py: find_solution, _find_solution, _find_speed_solution", "src/libecalc/process/process_solver/anti_surge/individual_asv.py", "src/libecalc/process/process_solver/anti_surge/common_asv.py", "src/libecalc/process/process_solver/pressure_control/*.py"]}
{"id": "C74", "title": "A section solution that claims success delivers the target pressure", "statement": "If solving a section reports success, then with every pressure control except individual anti-surge pressure control: only handlers of the section are set, the speed lies within the bounds of the shaft, handlers not mentioned are left reset, and whoever applies the returned configuration to a section whose other handlers are reset gets an outlet pressure within the larger of the tolerance and the accuracy of the root finder, and (except behind a downstream choke) gets an outlet stream at all. With individual anti-surge pressure control every stage ends on its share of the pressure ratio; the outlet is on target if only loop ends follow the last compressor. A reported unreachable target names the target, and the pressure it names lies on the stated side and is what the returned configuration delivers, or what the speed search found at top speed. Deviations exhibited: with an upstream choke the recirculation rates returned belong to the last pressure drop tried instead of the one returned, so that a section reported as solved can be in surge; with individual anti-surge pressure control the pressure lost behind the last compressor is never looked at, so that a solution reported as success misses the target.", "quantifier": "all sections, pressure controls, fluid services, root finders of given accuracy, targets, tolerances, streams and settings", "why_tests_cant": "quantifies over all sections, services and root finders; tests fix a handful of trains with one converged root finder", "anchors": ["src/libecalc/process/process_solver/pipeline_section_solver.py: find_solution, _find_solution", "src/libecalc/process/process_solver/pressure_control/*.py", "src/libecalc/process/process_solver/anti_surge/*.py", "src/libecalc/process/process_solver/recirculation_loop_rate_finder.py", "src/libecalc/process/process_solver/choke_delta_pressure_finders.py"]}
{"id": "C75", "title": "Solvers for several sections put every section on its target", "statement": "If the solver for sections on shafts of their own, the one splitting a pressure ratio equally, or the one for several pressure targets on one shaft reports success, then applying the returned configuration to sections whose other handlers are reset and running them one after the other, each fed by the one before, gives every section its target pressure within the larger of its tolerance and the accuracy of the root finder, at speeds within the bounds. With the equal split the targets are the inlet pressure times a power of the ratio, the last one exactly what was asked for. On one shaft the speed is the largest of the speeds the sections need one by one; fewer than two sections, different shafts, or a wrong number of targets never give a solution. None of the solutions depends on what the handlers were set to before. Deviations exhibited: sections sharing a shaft are accepted by the solver for independent shafts and success is reported with a section far off its target; the solver for one shaft reports a target as beyond the maximum although a higher speed within the bounds delivers all targets.", "quantifier": "all numbers of sections, pressure controls other than by stage pressures, fluid services, root finders of given accuracy, targets, streams and settings", "why_tests_cant": "quantifies over all chains of sections and histories of shared mutable handlers", "anchors": ["src/libecalc/process/process_solver/multi_shaft_solver.py", "src/libecalc/process/process_solver/multi_shaft_equal_ratio_solver.py", "src/libecalc/process/process_solver/multi_pressure_solver.py", "src/libecalc/process/process_solver/solver.py: Solution.combine"]}
{"id": "C76", "title": "Sections are put together as the solvers need them", "statement": "Assembling a section keeps all its units, in order. Every loop and choke added is new and belongs to this section only. A choke is added exactly for the two pressure controls by choke, first or last. With individual anti-surge every compressor is in a loop of its own: the i-th compressor in the i-th loop, whose splitter follows it immediately and whose mixer comes as early as possible without taking in another compressor, a mixer or a splitter; with a common valve one loop is around everything. With all loops at 0 and the choke open the assembled section does to every stream what its units alone do. The solver built from a validated section satisfies all conditions under which the section solvers were proved (C73, C74, C75), also for several sections on one or more shafts. Deviations exhibited: a common anti-surge valve with a choke and more than one compressor passes validation and cannot be turned into a solver (exactly that case); the pressure constraint of a section other than the last is placed one unit before its end.", "quantifier": "all lists of units, anti-surge and pressure control types, numbers of sections, streams and fluid services", "why_tests_cant": "quantifies over all sequences of units and all combinations of strategies", "anchors": ["src/libecalc/process/process_solver/section_assembly.py: assemble_process_section", "src/libecalc/process/process_solver/solver_assembly.py: assemble_solver", "src/libecalc/presentation/yaml/mappers/process/mapped_section_validator.py: MappedSectionValidator.validate", "src/libecalc/presentation/yaml/mappers/process/build_sections.py: ProcessSectionBuilder", "src/libecalc/presentation/yaml/mappers/process_simulation_mapper.py: map_process_simulation"]}
{"id": "C77", "title": "Individual anti-surge keeps every compressor out of surge", "statement": "For a section with one recirculation loop per compressor, gas without liquid to remove inside the loops, and any speed and choke setting: applying what individual anti-surge returns gives every compressor more than its minimum flow, even though an earlier loop changes nothing behind its splitter and a later loop nothing in front of it; no loop gets more than needed, that is, each rate is 0 or the flow is the minimum flow plus the margin of 1e-6 Sm3/day; and running the section then does not end with surge. Hence the solver of such a section never reports surge and never raises it, whatever the target, for both choke controls, and for the two controls by recirculation if every compressor can take some recirculation. Assembled sections with individual anti-surge satisfy the conditions. Deviation exhibited: with a liquid remover in the loop and wet gas, anti-surge reports success with a rate that leaves the compressor in surge, and the solver reports surge where a solution exists.", "quantifier": "all assembled sections, numbers of compressors, fluid services with positive densities, root finders, targets, streams and settings", "why_tests_cant": "quantifies over all trains and inlet streams; needs the induction over the compressors", "anchors": ["src/libecalc/process/process_solver/anti_surge/individual_asv.py: IndividualASVAntiSurgeStrategy.apply", "src/libecalc/process/process_solver/pipeline_section_solver.py: find_solution", "src/libecalc/process/process_units/compressor.py: get_recirculation_range"]}
{"id": "C78", "title": "The excess rate reported for a train is what the train cannot handle", "statement": "FeasibilitySolver.get_excess_rate(stream, target) (and StreamDistributionItem on top of it) returns a rate between 0 and the standard rate of the stream. It is 0, and is_valid is True, exactly when the stream has no flow or PipelineSectionSolver.find_solution succeeds for it. Otherwise the rate that is left lies in a bracket whose lower end the train handles (or is 0) and whose upper end it refuses; the width of the bracket is below 1e-4 relative or the rate divided by 2**40. So if handling a rate implies handling every lower one, the train handles no rate that is larger by more than the width and every rate that is smaller by more. The answer does not depend on what the solver was used for before, and the only exceptions are those find_solution raises for some lower rate. Deviations exhibited: the rate that is left may itself be refused (the last rate tried is returned), and a train that handles nothing keeps a positive rate.", "quantifier": "for all sections whose configurable units are controlled by their solver, fluid services, root finders, targets, streams, search parameters and prior settings", "why_tests_cant": "The result is the outcome of up to forty nested solver runs on shared mutable units; tests look at a few trains and rates and compare with a tolerance, which hides on which side of the border the returned rate lies.", "anchors": ["src/libecalc/process/process_solver/feasibility_solver.py:24-73", "src/libecalc/process/process_solver/search_strategies.py:53-93", "src/libecalc/process/process_solver/pipeline_section_solver.py:74-163", "src/libecalc/presentation/yaml/mappers/process_simulation_mapper.py:94-113"]}
{"id": "C79", "title": "Distributing a stream to trains keeps the total and respects capacities and priorities", "statement": "CommonStreamDistribution.get_streams() with compressor trains as items returns one stream per train, each with the fluid, pressure and temperature of the inlet stream and a non-negative rate; the rates add up to the shares of the inlet rate. A train with an overflow gets a stream that it handles (or no flow), or one that is the upper end of a bracket around its capacity with the width of the search. Without overflows each train gets its share. The streams do not depend on what the trains were used for before. PrioritiesStreamDistribution.get_streams() returns the streams of the first distribution in which every train handles its stream or has no flow, and those of the last one if there is none. Deviation exhibited: a distribution whose overflow is needed can be rejected because the first train is left with slightly more than it handles, and a later one that overloads a train by more than half is used.", "quantifier": "for all trains whose configurable units are controlled by their solvers, lawful fluid services, root finders, inlet streams, fractions, acyclic overflows, priorities and prior settings", "why_tests_cant": "Every rate comes from a chain of searches over solvers that change shared units, and validity is asked of the same solvers again; tests use stubs for excess and validity.", "anchors": ["src/libecalc/process/stream_distribution/common_stream_distribution.py:30-100", "src/libecalc/process/stream_distribution/priorities_stream_distribution.py:14-33", "src/libecalc/process/stream_distribution/individual_stream_distribution.py:7-15", "src/libecalc/presentation/yaml/mappers/process_simulation_mapper.py:94-113", "src/libecalc/process/process_solver/feasibility_solver.py:34-73"]}
{"id": "C80", "title": "A compressor made from sampled data reports what the samples say", "statement": "CompressorModelSampled(...) accepts a table exactly when it is sound (a variable with values, columns of equal length, no negative number) and, with one varying variable, no value of that variable is repeated. For such a table evaluate() reports for every step: 0 when the rate is 0; otherwise the straight line between the two neighbouring samples (read at the rate lowered by 1e-15), below the smallest sampled rate or discharge pressure the energy of that sample, above the largest sampled suction pressure the energy of that sample, and at the other ends no energy and an invalid result. A variable with one sampled value only limits: beyond it the result is invalid, otherwise it has no influence. Energies stay within the sampled ones, rise with the rate if the samples do, and do not depend on the order of the rows. get_max_standard_rate() is the largest sampled rate and the compressor is valid exactly up to it. With power values for a fuel table the power is known whenever the fuel is. Each step depends on its own inputs only. Deviations exhibited: get_max_standard_rate() is a TypeError when the rate and a pressure vary; a repeated value is reported by a TypeError; a table where nothing varies is rejected.", "quantifier": "for all tables with one varying variable, all operating points and series; the rejections, the off state and the limits for all tables and interpolators", "why_tests_cant": "The result depends on which variables happen to vary, on sorting, on fill values for each side and on the position relative to all samples; tests fix a few tables and points.", "anchors": ["src/libecalc/domain/process/compressor/core/sampled/compressor_model_sampled.py:56-160", "src/libecalc/domain/process/compressor/core/sampled/compressor_model_sampled.py:162-315", "src/libecalc/domain/process/compressor/core/sampled/compressor_model_sampled.py:317-363", "src/libecalc/domain/process/compressor/core/sampled/compressor_model_sampled.py:376-455", "src/libecalc/domain/process/compressor/core/sampled/compressor_model_sampled_1d.py:16-141"]}
{"id": "C81", "title": "A sampled compressor with two varying variables has a value exactly where the samples can do the job", "statement": "For a CompressorModelSampled table in which two of rate, suction pressure and discharge pressure vary, evaluate() reports a valid energy for a running operating point exactly when some point of the sampled area (the convex hull of the samples) has at least the rate, at least the discharge pressure and at most the suction pressure asked for. The energy then belongs to such a point: it is a blend of samples there, the first variable is moved no further than needed and the second no further than needed after that; inside the area nothing is moved. Energies stay within the sampled ones. The maximum rate at a pressure is the largest rate of the area that is available at that pressure or by choking, zero if there is none, and a positive rate is valid exactly up to it. All this when the middle of the table is not on the edge of the area, which can only happen when two opposite corners of the table are samples. Deviations exhibited: for a triangular table whose edge goes through the middle an operating point that is itself a sample costs twice what was sampled; a table whose highest rate is sampled once and at the highest discharge (or lowest suction) pressure is refused with an IndexError.", "quantifier": "for all tables with two varying variables, all geometric libraries that keep the stated promise (facets bound the hull, the interpolator is defined on the hull and blends samples), all operating points", "why_tests_cant": "The value depends on the shape of the convex hull, on which facets count as lower or upper, and on two successive projections; tests check one table of eleven points per kind.", "anchors": ["src/libecalc/domain/process/compressor/core/sampled/compressor_model_sampled_2d.py:45-341", "src/libecalc/domain/process/compressor/core/sampled/convex_hull_common.py:11-22", "src/libecalc/domain/process/compressor/core/sampled/convex_hull_common.py:95-130", "src/libecalc/domain/process/compressor/core/sampled/convex_hull_common.py:198-240"]}
{"id": "C82", "title": "Campbell's head and outlet pressure undo each other, and equal stage ratios are the cheapest", "statement": "calculate_polytropic_head_campbell and calculate_outlet_pressure_campbell are inverse: the outlet pressure for the head of a pressure ratio is the inlet pressure times the ratio, and the head of the resulting ratio is the head, for every head above the expansion limit. A ratio of one needs no head and a higher ratio always needs more; a higher head always gives a higher pressure. The head is proportional to compressibility and temperature, inversely to molar mass; a better efficiency always means less energy per kilogram for a compression. calculate_pressure_ratio_per_stage gives a ratio whose power by the number of stages is discharge over suction and which lies between one and the whole ratio. For stages that start from the same gas no split of the ratio needs less head than the equal one, and equal stages never need more head than one stage. calculate_power_in_megawatt is additive in enthalpy change and mass rate.", "quantifier": "all real ratios, pressures, temperatures, compressibilities, molar masses, exponents kappa > 1, efficiencies > 0, numbers of stages", "why_tests_cant": "Identities and inequalities between power functions over all real inputs; tests compare a few numbers with a tolerance.", "anchors": ["src/libecalc/domain/process/compressor/core/train/utils/enthalpy_calculations.py:144-280", "src/libecalc/domain/process/compressor/core/train/base.py:30-34", "src/libecalc/domain/process/compressor/core/train/utils/common.py:112-131"]}
{"id": "C83", "title": "The outlet of a compressor has taken up the work, at a pressure that agrees with Campbell", "statement": "calculate_outlet_pressure_and_stream returns a state that comes from a flash at a positive pressure with the inlet enthalpy plus head over efficiency, accepted by the checks on the flash; the equation of state is never asked for a non-positive pressure; every failure is a compressor outlet calculation error. When the iteration converges the flash pressure agrees to nine parts in a thousand with Campbell's pressure for the mean of inlet gas and the gas of the round before. If Campbell's pressures lie between bounds, so does the result; if they vary by less than four parts in ten thousand, the iteration converges and is that exact. Deviation: the cap of 2000 bar holds for the first flash only; a result may be far above it.", "quantifier": "all thermodynamics (flash and Campbell as arbitrary functions), inlet states, heads, efficiencies", "why_tests_cant": "A damped iteration of up to thirty rounds around an external flash; tests see a few gases that converge.", "anchors": ["src/libecalc/domain/process/compressor/core/train/utils/common.py:27-82", "src/libecalc/domain/process/compressor/core/train/utils/common.py:134-302", "src/libecalc/process/fluid_stream/fluid_property_validation.py:33-83"]}
{"id": "C84", "title": "A simplified train has equal ratios, balanced energy, honest areas, and a maximum rate set by its weakest stage", "statement": "CompressorTrainSimplified evaluates every stage in order with the same mass rate; stage i starts at suction times ratio^i at its own inlet temperature, and the train ends at the discharge pressure when ratio^n is discharge over suction. In every stage the outlet has the inlet enthalpy plus the change; recirculation and choking never lower mass or change and are flagged exactly when they changed something; the power is mass times change; the stage is valid exactly when the corrected point is inside the chart. The chart area names exactly the flags. A stage or train without flow needs no power. A converged head iteration gives head and efficiency that belong together within one part in a thousand. Too much power is reported exactly when all stages are within capacity and their powers sum to more than a non-zero maximum. The maximum rate is the smallest of the stage maxima at these pressures; a ratio below one is refused; when the head does not depend on the state of the gas, the maximum rate of a stage is exactly the largest valid rate. Deviation exhibited: for a head above the chart no rate is valid and yet a positive maximum rate is reported.", "quantifier": "all thermodynamics, charts of ordinary shape where stated, trains of any length, rates, pressures, ratios", "why_tests_cant": "Relates evaluations of all stages, two nested iterations around an external flash and the chart envelope; tests fix one train and compare numbers.", "anchors": ["src/libecalc/domain/process/compressor/core/train/stage.py:349-469", "src/libecalc/domain/process/compressor/core/train/utils/enthalpy_calculations.py:22-141", "src/libecalc/domain/process/compressor/core/train/simplified_train/simplified_train.py:101-360"]}
{"id": "C85", "title": "Numbers shown with a precision are close, ordered, tidy and stable", "statement": "format_to_precision accepts every precision from -1 on and gives a text; the number shown differs from the number by at most half a unit 10^-precision (relative for numbers above one), larger numbers are never shown smaller, a number and its negative have the same digits, rounding twice is rounding once, whole numbers are shown in full, and the text has at most the asked decimals without trailing zeros. Exactly the numbers up to half of the last decimal are shown as zero. Rounding a result keeps its shape and changes only numbers; sums of shown numbers are as close as the single errors allow. Deviations exhibited: '-0' is shown for small negative numbers, and precision -1 is accepted and shows 1 as 0.", "quantifier": "all rational numbers, all precisions, all nested results", "why_tests_cant": "The number of decimals depends on the magnitude of each number and rounding is to the even neighbour; monotonicity, stability and the error bound quantify over all numbers and pairs.", "anchors": ["src/libecalc/common/math/numbers.py: Numbers.format_to_precision, Numbers.format_results_to_precision"]}
{"id": "C86", "title": "Uploaded files are sorted by ending, named uniquely and linked relative to the one main file", "statement": "Every uploaded file is reported once, in order, as valid exactly when it ends in .csv, .yaml or .yml, as an archive when it ends in .zip and is alone, and as invalid otherwise. The main file is the only yaml file with one of the main words; none or several are refused. The relative path of a file, followed from the directory of the main file, leads to the file when the text of the common directory does not turn up again. When no name has an underscore, files with different paths get different flat names and unique names are kept. Deviations exhibited: the common directory is removed wherever its text occurs, renamed files can collide with others, and a name ending in a dot stops the sorting with an IndexError.", "quantifier": "all lists of files, names and directory trees", "why_tests_cant": "Path surgery by text replacement fails only for particular combinations of names, and uniqueness relates all files of an archive.", "anchors": ["src/libecalc/infrastructure/file_io.py"]}
{"id": "C87", "title": "Dates of a time series are read as written, all in one style, or refused", "statement": "For texts with at most a date and a time to the second, a time vector is accepted with certain moments exactly when there is one style (year; year-month-day with or without time; day-month-year with or without time) in which every text says its moment and all moments exist. No text has two readings, so the order of the tests does not matter; dots, slashes and dashes make no difference; in a date ending with the year the day comes first, and dates that can only be month first are refused whatever pandas would make of them. Deviation exhibited: fractions of a second are accepted by the pattern but handed to pandas as an offset from UTC.", "quantifier": "all lists of texts, all separators, any pandas reader that reads dashed dates as written", "why_tests_cant": "The space of texts is infinite and the danger is a silent second reading of an ambiguous date; tests try some texts per pattern.", "anchors": ["src/libecalc/presentation/yaml/domain/time_series_resource.py: TimeSeriesResource._parse_time_vector"]}
{"id": "C88", "title": "Dates in a model split the run exactly", "statement": "Every date that is a key anywhere in the YAML file is a date of the run (inside START/END), and no other date is added. When the energy usage model of a consumer is keyed by ascending dates, each of its models is given exactly the periods of the run inside its own period, with the values of these periods; the parts put after each other are the periods of the run from the first date on, none lost and none given twice; in each of them the model in force throughout is the one that is used. Models without dates are given the whole run. When the run cannot be cut like this an error is raised and never a wrong part: dates of a model the file search did not see, and, without START, later dates of a model between 1900-01-01 and the first date of the run.", "quantifier": "all YAML trees, time series dates, START given or not, END, ascending date keys, values of all variables", "why_tests_cant": "Tests use a handful of dates that agree with the time series; that no period is lost, doubled or given to the wrong model for any arrangement of dates is a statement about all of them, and the failure without START needs a date before the run.", "anchors": ["src/libecalc/presentation/yaml/yaml_models/pyyaml_yaml_model.py:661-693", "src/libecalc/presentation/yaml/model.py:82", "src/libecalc/presentation/yaml/model.py:272-310", "src/libecalc/presentation/yaml/mappers/consumer_function_mapper.py:984-993", "src/libecalc/common/variables.py:54-60"]}
{"id": "C89", "title": "A run gives every component exactly its own result", "statement": "For every file whose registered models can be evaluated, a run gives one result for each consumer that has a model in the period of the file and one for each generator set, each exactly once, consumers before the generator set that feeds them, and for nothing else. The result of a consumer of compressor or pump models is made from the results of the models of all its periods, each with its own input, in the order of the file; a consumer of consumer functions is evaluated by itself; a generator set is evaluated from the results of exactly its own consumers in the order of the file. The first error of a consumer or generator set in this order is the error of the run, and nothing else goes wrong. If a registered model cannot be evaluated, the run fails with the error of such a model.", "quantifier": "all files (any number of installations, generator sets, consumers, periods, emitters), any behaviour of models, consumers and generator sets", "why_tests_cant": "Models, inputs, results and components are tied together only by fresh ids in five dicts and a graph; that no result is lost, doubled or given to another component for any arrangement is a statement about all files.", "anchors": ["src/libecalc/presentation/yaml/model.py:453-485", "src/libecalc/presentation/yaml/model.py:519-640", "src/libecalc/presentation/yaml/mappers/component_mapper.py:268-718", "src/libecalc/presentation/yaml/domain/default_process_service.py"]}
{"id": "C90", "title": "The operational settings of a consumer system are used as written", "statement": "For a consumer system in the YAML file, every operational setting that passes validation of the file is mapped to exactly what it says: consumer i has the i-th rate, or the total system rate times the i-th fraction converted from calendar to stream day and zero where the condition does not hold; common pressures or its own; its own fluid density or that of the system; and the cross-overs as given. The product is that of the two expressions as wholes whatever operators they contain, and when all rates are fractions of the total they add up to the total times the sum of the fractions. A setting is refused exactly when something in it cannot be evaluated, pressures are impossible (in periods where the compressor runs; for pumps in all periods) or the cross-overs do not match the consumers. A compressor system is accepted exactly when all its compressors use the energy the consumer is declared to use.", "quantifier": "For every number of consumers, every expression text of total, fractions, pressures, densities and conditions, every regularity, every set of periods and variables.", "why_tests_cant": "The rate of a consumer is built by pasting texts together and lexing them again; whether this is the product of the two expressions depends on every possible text on either side, and how fields, lists and masks line up depends on every number of consumers and periods.", "anchors": ["src/libecalc/presentation/yaml/mappers/consumer_function_mapper.py:1357-1660", "src/libecalc/presentation/yaml/yaml_types/components/legacy/energy_usage_model/yaml_energy_usage_model_consumer_system.py:34-312", "src/libecalc/domain/infrastructure/energy_components/legacy_consumer/system/operational_setting.py:30-100"]}
{"id": "C91", "title": "References in the file stand for what the file declares under that name", "statement": "In a file without duplicated names, where streams and pipelines are called what their key says, a reference stands for exactly the item declared under that name, errors about it point to the place of that item, and every other reference is refused. A reference to a model is accepted when the file is read exactly when it names a facility input or model of an allowed type, and a compressor with turbine only when its own compressor is allowed there and has no turbine. An accepted reference is found when models are created, and a compressor model is made of exactly the fluids, charts and turbine declared; in an accepted file it is created exactly when every stage names a chart that suits the train, which for simplified trains is guaranteed by validation, also without operational data in compressor systems. Deviations exhibited: streams are found by NAME while keys are checked, so that a stream can hide a fuel; tables are accepted for pumps and stages but never found; generic charts are accepted for trains with speeds but never created.", "quantifier": "all files: any names, items and references between them, any number of sections and entries", "why_tests_cant": "The names of ten sections end up in one dict in which later sections overwrite earlier ones, while validation uses another dict and another order; whether the two agree depends on all names of the file, and chains of references may be of any shape.", "anchors": ["src/libecalc/presentation/yaml/yaml_reference_service.py:86-249", "src/libecalc/presentation/yaml/model.py:347-353", "src/libecalc/presentation/yaml/yaml_types/models/model_reference_validation.py:31-204", "src/libecalc/presentation/yaml/yaml_types/models/yaml_compressor_trains.py:150-181", "src/libecalc/presentation/yaml/yaml_types/components/legacy/energy_usage_model/yaml_energy_usage_model_consumer_system.py:131-161", "src/libecalc/presentation/yaml/mappers/consumer_function_mapper.py:306-848"]}
{"id": "C92", "title": "Streams of a compressor train go to the stages that mention them", "statement": "For a compressor train with several streams in which every stream is mentioned by exactly one stage, no stage is lost and the train has exactly one port for each stream, of its kind and at that stage. Rates and fluids are given to ports by position, so each stream has its own port exactly when the streams are listed in the order of the stages, outgoing before ingoing at each stage and an inlet of the first stage first. Then the first stream enters the train, the splitter of every stage is given the rates of the outgoing streams it mentions and its mixer the fluids and rates of the ingoing ones. When ingoing and outgoing streams are mixed up the run is refused. The interstage control pressure belongs to the stage that has it. Deviations exhibited: streams of one kind listed in another order are silently exchanged; a stream no stage mentions shifts the rates of those after it; a stage that mentions a stream of an earlier stage is silently left out.", "quantifier": "all numbers of streams and stages, all names, all orders, all rates and fluids", "why_tests_cant": "Streams are tied to stages by name in the file but by position afterwards; whether the positions agree depends on the order of two lists, and tests list streams in the order of the stages.", "anchors": ["src/libecalc/presentation/yaml/mappers/consumer_function_mapper.py:695-785", "src/libecalc/presentation/yaml/mappers/consumer_function_mapper.py:354-402", "src/libecalc/domain/process/compressor/core/train/base.py:62-130", "src/libecalc/domain/process/compressor/core/train/compressor_train_common_shaft.py:205-256"]}
{"id": "C93", "title": "The energy usage model of a consumer is evaluated as written", "statement": "The conditions of a consumer, whether one CONDITION or a list of CONDITIONS, hold in a period exactly when every one of them is not zero. A direct consumer uses, in every period, the value of its load or fuel rate, nothing where a condition is zero, divided by the regularity if given per calendar day, increased by the loss factor; a negative fuel rate is refused. A variable of a table has the value given, and only the one called rate, in any case, is taken per calendar day. The model of a compressor, a pump or a train with several streams is accepted exactly when its fields have values, no rate is negative, the pressures are positive and do not fall on the way wherever it runs, and the model it refers to uses the energy expected; a train needs both pressures and a fluid. No consumer is ever given a model that uses another kind of energy. Deviations exhibited: a pump or a train without a pressure, which the file allows, ends in an uncaught TypeError or AssertionError; a pump without a rate but with a condition is evaluated with rates that are not numbers; CONDITION 0 given as a number means always; a comment is harmless in CONDITION but breaks CONDITIONS.", "quantifier": "all expressions of any size, any number of conditions, streams, variables and periods, all values", "why_tests_cant": "Conditions are joined as text and parsed again, masks and regularities act per period, and which pressures are checked depends on the rates; tests use a few numbers per field.", "anchors": ["src/libecalc/presentation/yaml/mappers/consumer_function_mapper.py:166-272", "src/libecalc/presentation/yaml/mappers/consumer_function_mapper.py:998-1366", "src/libecalc/presentation/yaml/mappers/consumer_function_mapper.py:1656-1702", "src/libecalc/presentation/yaml/yaml_types/components/legacy/energy_usage_model/common.py:9-31"]}
{"id": "C94", "title": "The prognosis reports say how much of what, and each amount once", "statement": "The long and the short term prognosis of an installation, at any frequency: the file has the identifiers of exactly the columns asked for the installation's category, their headings (all different), and one line per reporting period in order of time, with in every cell the part of the amounts from exactly the sources named by the column that falls into the period, as a number with six significant decimals (sign changed for offshore wind and steam turbines). The columns of one emission (or of fuel in one unit) add up to the amounts of all sources, each taken as often as a stated table says; where that is once, they add up to the total in the short term prognosis. A column with the same identifier in both reports is the same.", "quantifier": "for all installations, consecutive periods, frequencies, sources with any categories and emission names, and amounts", "why_tests_cant": "the tests compare exported files of a few models with snapshots; which combinations of fuel, consumer category and installation category are counted never, once or twice depends on all 64 filters at once", "anchors": ["src/libecalc/presentation/exporter/configs/configs.py:55-717", "src/libecalc/presentation/exporter/appliers.py:42-103", "src/libecalc/presentation/exporter/aggregators.py:45-86", "src/libecalc/presentation/exporter/formatters/formatter.py:20-54", "src/libecalc/presentation/exporter/dto/dtos.py:24-105"]}
{"id": "C95", "title": "A simplified train made from operational data fits this data", "statement": "A train with unknown stages gets the smallest number of stages for which the pressure ratio per stage is at most the given maximum in all time steps, and the stages lead from the suction to the discharge pressure in equal ratios. A simplified train whose charts are generated from its operational data runs, at each time step with flow of this data, with each stage within its chart and the asked pressure at the end: for every gas if there is one time step, and for gases whose head does not depend on the changing state for any number of time steps.", "quantifier": "for all maximum ratios above one, pressures, numbers of stages, inlet temperatures, efficiencies in (0, 1], standard rates, and flashes and head functions that are total at positive pressures", "why_tests_cant": "generated charts depend on all time steps together and on iterations in two places that must agree; the tests take one fluid and a few time steps", "anchors": ["src/libecalc/presentation/yaml/mappers/simplified_train_mapping_utils.py:61-83", "src/libecalc/presentation/yaml/mappers/consumer_function_mapper.py:540-692", "src/libecalc/presentation/yaml/mappers/charts/generic_from_input_chart_data.py:16-97", "src/libecalc/domain/process/compressor/core/train/utils/enthalpy_calculations.py:22-141"]}
{"id": "C96", "title": "A compressor's report shows what was computed and what was requested", "statement": "For a train whose time steps all have the same stages the result has one series per stage, and at every time step the series show exactly what was computed for that stage then: power, mass rates with and without recirculation, conditions at both ends (NaN and zero rates where there is no stream), heads, efficiency, speed, loss and flags; the train's own conditions are those of its ends, with the net rates of its first and last stage. What is shown for a time step depends on that time step alone. The power of the train is the sum of the powers shown for its stages, adjusted where it is positive, NaN where one is. The recirculation loss of a stage is the share of its power that goes into recirculated gas, between zero and the power; the train's is the sum. A time step is valid exactly when the train did not fail and every stage is valid; a flag of the train is up exactly when it is for a stage. An idle time step is valid, without power (whatever the adjustment), loss, rates or pressures. Without time steps, without stages or with a time step that lacks a stage there is no result but an error. The pressures shown as requested from a compressor of a system are, in every period, those of the operational setting used then. Deviation exhibited: with an adjustment the powers of the stages do not add up to that of the train.", "quantifier": "any number of time steps, stages, systems, settings and periods; all values including missing streams and NaN", "why_tests_cant": "The series are filled by index from objects in which the same quantity appears as net, gross, inlet and outlet; that none is exchanged or shifted at any stage or time step, and that numbers of settings are counted from one on both sides, is a statement about all results.", "anchors": ["src/libecalc/domain/process/compressor/core/results.py:18-343", "src/libecalc/domain/process/compressor/core/results.py:396-411", "src/libecalc/domain/process/compressor/core/train/base.py:214-249", "src/libecalc/domain/process/core/results/compressor.py:46-306", "src/libecalc/presentation/json_result/mapper.py:604-663", "src/libecalc/presentation/json_result/mapper.py:1420-1427", "src/libecalc/core/result/results.py:162-177"]}
{"id": "C97", "title": "Reading a file with includes is reading the file with the includes written out", "statement": "Reading a YAML file whose includes are files of a directory that do not include each other in circles gives a value exactly when the document with every include replaced by the document it names is a mapping in which no mapping has two equal keys (and no merge key); the value is the one of that document, and such documents can always be written out. A file is only read when it and every file it includes, directly or through others, exists, has a legal name and no syntax error. When a duplicate key is reported, the file named is the one read or one it includes, and at the position given is a key that repeats an earlier one of its mapping. When no file is included twice, the result is the same with the included files given as open streams. What is read is a mapping; empty files and other roots are refused. A file that reaches a circle of includes is never read, however deep Python may go. What was read before does not change what is read when the place of the includes is given or there are none. Deviations exhibited: a stream included a second time is null; a file read with includes switched off includes from the place of an earlier reading; a syntax error in an included file is reported under the name of the main file; merge keys are refused.", "quantifier": "any documents, directories, include graphs, positions and sequences of earlier readings; recursion limit arbitrary", "why_tests_cant": "Loaders are classes created while reading, subclassing one another at every level of inclusion, and their constructors are kept by the class; that every level checks its own keys, names its own file and leaves nothing for the next reading concerns all graphs of files and all orders of reading.", "anchors": ["src/libecalc/presentation/yaml/yaml_models/pyyaml_yaml_model.py:91-276", "src/libecalc/presentation/yaml/yaml_models/exceptions.py:4-18", "src/libecalc/presentation/yaml/file_configuration_service.py:19-44"]}
{"id": "C98", "title": "The files a model needs are read and renamed as they are named in it", "statement": "The time series files of a model are those written under FILE in the items of TIME_SERIES; its facility files are those under FILE in FACILITY_INPUTS, in the curves of MODELS, and anywhere in process units and pipelines, each named once. Reading them gives, for each named file that holds a valid table, that table under its name, and an error for each that is invalid; a name counts as found exactly when it is named and there is such a file, valid or not. Renaming a file succeeds when its sections can be gone through; in each of TIME_SERIES, FACILITY_INPUTS and MODELS the first place with the old name gets the new one, nothing else in the model changes, and the status says whether no, one or several sections had it. When no section has the old name twice, the result is the model with the name changed everywhere, and the files it then needs are those it needed with the name changed, in the same order. Several names are changed as if at once when no new name is an old one that comes later. Deviations exhibited: of two places in one section only the first is renamed, with the status of one update; names that are exchanged stay as they are; files of process units are never renamed; an empty section is a TypeError.", "quantifier": "any model data, names, directories and lists of renamings", "why_tests_cant": "Renaming walks three sections with three attempts per item, each of which may be absent or of another type, and stops early; that nothing else changes and that what is read afterwards fits is a statement about all models.", "anchors": ["src/libecalc/presentation/yaml/yaml_models/pyyaml_yaml_model.py:283-345", "src/libecalc/presentation/yaml/yaml_models/pyyaml_yaml_model.py:694-712", "src/libecalc/presentation/yaml/yaml_models/yaml_model.py:254-338", "src/ecalc_cli/infrastructure/file_resource_service.py:17-73", "src/libecalc/presentation/yaml/model.py:365-388", "src/libecalc/presentation/yaml/yaml_validators/file_validators.py:9-22"]}
{"id": "C99", "title": "An error is reported where it is", "statement": "For every file and every path of keys, get_file_context follows the path as far as there is something in the file and returns the place of the last mapping on the way: the mapping itself if the path leads to one, the mapping that lacks a keyword or has a plain value under it, the definition of a date if the path has that date. If everything is in the main file this place contains the value that the error is about. validate reports every error of pydantic, in order, under its path without the parts that pydantic adds for definitions split by dates, with the text that eCalc gave. Locations of clear keys (names not empty, without dots and brackets and not like dates) that are shown the same way are the same. In the errors of the mappers, the number of a component in its list is replaced by its name and nothing else, and errors in what a reference stands for are located at its definition.", "quantifier": "all values with places (mappings, lists and scalars nested arbitrarily), all paths, all lists of errors, all registered names", "why_tests_cant": "The context is found by a loop over the path with several kinds of keys and with a fall-back to an outer mapping; tests look at a few files with one error each and cannot show that the place is right for every nesting.", "anchors": ["libecalc/presentation/yaml/yaml_models/pyyaml_yaml_model.py:553-658", "libecalc/presentation/yaml/validation_errors.py:28-72", "libecalc/presentation/yaml/mappers/component_mapper.py:78-93", "libecalc/presentation/yaml/mappers/component_mapper.py:161-190"]}
{"id": "C100", "title": "A component burns the fuel that the file gives it", "statement": "A consumer that is accepted has, at every moment of the run, exactly the fuel that its own FUEL names at that moment, or that of the installation if it has none of its own, and exactly the model that is in force then; whenever it has a model it has a fuel. Accepted are exactly the consumers that have a model at some moment of the run, whose fuels in force during the run are all defined, and that have a fuel whenever they have a model. Consumers without a model during the run are left out, whatever fuel they have. A refusal tells the missing fuel, an undefined fuel that is in force, or the two periods that do not fit. The same holds for generator sets. A consumer is of the kind that all its models have, and generic otherwise. If no fuel is given at any moment of the run, or no model for a generator set, the code ends with an IndexError instead of a message.", "quantifier": "every run period, every way to give the fuels and models (absent, constant, by increasing dates), every moment, every set of fuels", "why_tests_cant": "Whether the fuel at a moment is the right one depends on two sets of dates and on the period of the run; tests fix one arrangement of these dates.", "anchors": ["src/libecalc/presentation/yaml/mappers/component_mapper.py: _resolve_fuel, map_consumer, map_generator_set, _get_component_type", "src/libecalc/common/temporal_model.py: TemporalModel", "src/libecalc/domain/infrastructure/energy_components/generator_set/generator_set_component.py: __init__", "src/libecalc/domain/infrastructure/energy_components/fuel_consumer/fuel_consumer.py: __init__"]}
{"id": "C101", "title": "The limits of a three-dimensional sampled compressor are the limits of the sampled space", "statement": "A point counts as inside a triangle exactly if it is between the three corners, and on a triangle the value is the blend of the values at its corners. If the middle of the box around the sampled points is inside the space they span, the lower (upper) facets of any of the three variables give, at every pair of the other two, exactly the smallest (largest) value in the space, and nothing exactly where the space has no point. On the facets kept for the maximum rate, the value is the highest rate of any point in the space with at most the suction pressure and at least the discharge pressure.", "quantifier": "every list of sampled points, every convex hull of them as the geometric library promises it (any facets, any order, any triangulation), every variable and pair of values", "why_tests_cant": "The facets are classified one by one with a test against the middle of a box; whether together they cover the limit of the space, without gaps and without facets from the other side, depends on the whole shape. Tests look at one table.", "anchors": ["src/libecalc/domain/process/compressor/core/sampled/compressor_model_sampled_3d.py: ConvexHull3D usage, _setup_*_projection_functions", "src/libecalc/domain/process/compressor/core/sampled/convex_hull_common.py: LinearInterpolatorSimplicesDefined, Simplex, HalfConvexHull, get_lower_upper_qhull"]}
{"id": "C102", "title": "A three-dimensional sampled compressor serves what some sampled point serves", "statement": "Operating points in the space between the samples get an energy that is a blend of samples blending to exactly that point. Outside it, if some operating point in the space does what is asked for (at least the rate, at most the suction pressure, at least the discharge pressure) and the rate is at least the tolerance (one ten-thousandth of the range of sampled rates), there is an energy. Conversely, an energy is only given where some point in the space does what is asked for up to the tolerance in the rate, and it is the energy of a blend with at most the suction pressure and at least the discharge pressure, and at least the rate up to the tolerance (or at pressures where a rate within the tolerance is possible). It is never outside the range of sampled energies. The maximum rate is zero or reached by a point in the space that serves the pressures, and has an energy.", "quantifier": "every table with non-negative values whose middle is inside the sampled space, every library that computes hulls and interpolations as promised, every rate and pair of pressures", "why_tests_cant": "Outside the space the code moves the point in three different ways, one after the other, with limits that are themselves interpolated; that no point between them is lost follows from convexity only. Tests evaluate a few points around one table.", "anchors": ["src/libecalc/domain/process/compressor/core/sampled/compressor_model_sampled_3d.py: CompressorModelSampled3D.__init__, evaluate, get_max_rate, _project_and_calculate_outsiders_rate, _project_and_calculate_outsiders_pd, _project_and_calculate_outsiders_ps"]}
{"id": "C103", "title": "Chart files: every row of the file, no matter in which order, and the chart in the results", "statement": "A chart file for several speeds is accepted exactly when every speed that occurs has at least two rows and every efficiency, converted to a fraction, is between 0 and 1. The chart then has one curve for each speed, in increasing order of speed, and each curve has exactly the rows of its speed, with heads and efficiencies in the units of the calculation, sorted by rate. The order of the rows in the file does not matter, and curves written in the YAML file give the same chart or the same refusal as the same curves listed in a file. A single speed file gives one curve whose speed is that of its rows, or 1 without a column for it; different speeds are refused. The results show the curves without control margin just as they are, and for a positive margin one point of the margin line per curve, lying on that curve; they can be shown exactly when speeds, rates and heads are not negative and efficiencies are above 0 and at most 1.", "quantifier": "for all files with any rows and further columns, all spellings and readings of headers and texts, all units, all margins below one", "why_tests_cant": "tests read a few small files; that no row is lost, doubled or moved to another speed for any file, and that the two ways of writing a chart agree, is a statement about all tables", "anchors": ["src/libecalc/presentation/yaml/mappers/charts/user_defined_chart_data.py:27-142", "src/libecalc/domain/resource.py:9-28", "src/libecalc/presentation/yaml/mappers/utils.py:21-93", "src/libecalc/presentation/json_result/serializable_chart.py:25-136", "src/libecalc/domain/process/value_objects/chart/base.py:28-54"]}
{"id": "C104", "title": "Pressures and other plain series at a coarser frequency", "statement": "When results are reported with another frequency, a plain series of floats (pressures, temperatures, efficiencies, speeds, regularity) gets one value for each reporting period. The value is the number with which the series starts a period at the latest reporting date, up to and including the first date of the reporting period, where it does so; if there is none the value is NaN. A change that falls on the first date of a reporting period is shown there. If the series starts at midnight and all its changes fall on the calendar of the frequency, each reporting period shows the value in effect at its first date. Otherwise it may not: the value of a period that does not start on a reporting date is never shown, and a missing value (NaN) is replaced by the one before it.", "quantifier": "for all series over consecutive periods, all values including NaN, all frequencies and choices of including the start and end dates", "why_tests_cant": "tests resample a few series; which value is shown for any pattern of dates and missing values is a statement about all series and calendars", "anchors": ["src/libecalc/common/utils/rates.py:181-208", "src/libecalc/common/utils/rates.py:469-477", "src/libecalc/common/time_utils.py:268-331", "src/libecalc/presentation/json_result/result/tabular_time_series.py:103-140"]}
{"id": "C105", "title": "The table of results: every series once, under its heading, in the row of its period", "statement": "The CSV file has one row for the start date of each period of the model and one column for each time series of each component and of its emissions, in order, headed by the name of the component, a dot, the attribute and the unit. Rates per day and powers say in the unit whether they are per stream day or per calendar day, cumulative volumes say calendar day. The cell of a row is the value of the period that starts there, or NaN if there is none. A component whose attributes and emissions have distinct names always has a table, whatever its emissions are called, and components with equal names do not make the file fail. At another frequency the table has the same headings, one row for each reporting period, and no gaps. Components are listed by kind, then by name.", "quantifier": "for all result objects nested to any depth, all names, series, units, periods and frequencies", "why_tests_cant": "tests compare one stored file; that no series is lost, doubled or put into the wrong row for any model is a statement about all results", "anchors": ["src/libecalc/presentation/json_result/result/tabular_time_series.py:44-139", "src/libecalc/infrastructure/file_utils.py:94-135", "src/libecalc/presentation/json_result/result/results.py:306-314", "src/libecalc/common/component_type.py:4-24", "src/libecalc/common/units.py:46-88"]}
{"id": "C106", "title": "The caches of the thermodynamic service change answers by no more than their rounding", "statement": "After any sequence of requests, the answer to a flash is what NeqSim gives for this request, or for one made since the caches were last cleared whose pressure and temperature (or enthalpy) differ by at most 1e-6 and whose fractions differ by at most 1e-8; errors are always those of the request itself, and the kinds of flash are never mixed up. If requests are further apart than that, answers and errors are exactly those without caches. This also holds after clearing and with caches of size 0. Every result of a flash to an enthalpy, cached or not, is physically valid and has the enthalpy asked for within 10 J/kg or 0.01 %. Asking again gives the same result. A result has every property of the flashed system in its place, and the standard density of the gas of the reference fluid, which is the fluid itself only if at most one part in ten thousand is liquid; removing liquid leaves such fluids alone and gives the gas of others. Only the proportions of a composition count. NeqSim gets every component with a positive fraction once, the fractions adding up to 1, and reading them back gives the same composition. Standard rates and mass rates are converted by the density and back without change. Caches have the sizes configured before first use, and keep them. It is recorded that answers can depend on what was asked before within these bounds, that the temperature to start from is no part of the key, that negative sizes make every flash fail, and that the size 0 on the command line is taken for the default.", "quantifier": "for all behaviours of NeqSim, all fluid models, all sequences of requests and clearings, all sizes of the caches", "why_tests_cant": "what a cache returns depends on the whole history of requests and evictions; tests see a few histories", "anchors": ["src/ecalc_neqsim_wrapper/fluid_service.py:44-510", "src/ecalc_neqsim_wrapper/cache_service.py:57-176", "src/ecalc_neqsim_wrapper/mappings.py", "src/libecalc/process/fluid_stream/fluid_property_validation.py:22-78", "src/ecalc_cli/commands/run.py:131-139"]}
{"id": "C107", "title": "A run writes exactly the files asked for, and leaves all others alone", "statement": "`ecalc run` writes into the output folder (by default `output` beside the model) exactly the files asked for by --csv, --json, --ltp-export, --stp-export and --flow-diagram, named by the prefix (by default the name of the model without extension), each with the content of its own kind, and one export per installation; it makes no folder but the output folder. However and wherever a run fails, no other path is changed. A run of an invalid model writes nothing; one whose evaluation fails leaves at most the flow diagram; one without outputs writes nothing. Runs with different prefixes without dots leave each other's files alone, even in one folder, unless one prefix is the other followed by `_intensity`. It is recorded that prefixes which differ only after a dot share their tables, that an empty prefix puts tables outside the folder, that a slash in the name of an installation makes exports fail half-way, and that the status of the process is 0 for an invalid model.", "quantifier": "for all options, paths, contents of the disk, results or failures of each part of the run, and names of installations", "why_tests_cant": "that nothing else is overwritten concerns all paths of the disk and all places where a run can fail", "anchors": ["src/ecalc_cli/commands/run.py:118-278", "src/ecalc_cli/io/output.py:25-196", "src/ecalc_cli/main.py:68-87", "src/libecalc/presentation/exporter/handlers/handler.py:68-81"]}
{"id": "C108", "title": "The flow diagram shows every component of the file once, connected to what feeds it", "statement": "Every model has a flow diagram. It shows all installations, and in the diagram of each installation its generator sets with their electricity consumers, its fuel consumers and its venting emitters: every component with a model in the period of the file exactly once, under its name, in the order of the file, with the symbol of its type, and nothing else. Fuel flows to exactly the installations, generator sets and fuel consumers, emissions come from these and the emitters, and every electricity consumer is fed by its own generator set and nothing else. In every diagram ids differ, edges join nodes of that diagram by flows it declares, and no component is left unconnected. The diagram inside a node has the node's id and name and the period of the model; an installation without components has none.", "quantifier": "for all files (numbers of installations, generator sets, consumers, emitters), component types and periods", "why_tests_cant": "that nothing is lost or connected wrongly for any structure is a statement about all files; tests draw one or two", "anchors": ["src/libecalc/presentation/flow_diagram/energy_model_flow_diagram.py:16-166", "src/libecalc/presentation/flow_diagram/flow_diagram_dtos.py:11-79", "src/libecalc/presentation/yaml/domain/energy_container_energy_model_builder.py:7-60"]}
{"id": "C109", "title": "A process simulation is made of what its file says, each unit once for each place it is used", "statement": "A process simulation is accepted exactly when everything it names is there; then it has, for each of its targets and in their order, a pipeline with one unit for each item, of the kind defined under the item's name or in place, with the chart, the pressure, temperature, stream or rate of that definition as the configuration of that unit and no other. A definition that is used at two places gives two different units, also across pipelines and simulations. The compressors and pumps of a pipeline share its shaft. Its sections are cut at the units its constraints name, every change replaces the unit it names by one made of its new definition at the start of the event it refers to, and overflow goes from and to the pipelines named. The events have the process events that refer to them, in order; they are refused when a name occurs twice or a reference is to none. The fluid of a period has the equation of state of its definition and of every component the value its own expression has at that period; the amounts of every predefined gas add up to a hundred and give the molar mass it is known by.", "quantifier": "for all simulations, pipelines, units, constraints, distributions, events and fluids, and all registries of definitions", "why_tests_cant": "that nothing is lost, swapped or shared for any combination of references is a statement about all files; tests map one or two", "anchors": ["src/libecalc/presentation/yaml/mappers/process_simulation_mapper.py:1-580", "src/libecalc/presentation/yaml/mappers/ecalc_event_mapper.py:1-46", "src/libecalc/ecalc_model/time_series_fluid_model.py:1-54", "src/libecalc/presentation/yaml/mappers/fluid_mapper.py:1-105"]}
{"id": "C110", "title": "One Java service at a time: no process is left behind, and no answer comes from one that is gone", "statement": "For every sequence of calls in which gateways shut down when told to, the service behaves as a machine that is off, or on with one virtual machine that computes every answer anew: initialising it again gives the same service, another kind or a new configuration is refused while it is on, objects of earlier services do nothing, and neither the caches nor restarts can be noticed in the answers. A Java process runs exactly while the service with it is on, with the memory configured when it was made; when the service is off no process runs and the caches are empty. In every sequence of calls, also if gateways refuse to shut down, an answer is that of the machine in use, which runs, and leaving the service leaves none and empty caches. A memory is accepted exactly if it is digits and a unit.", "quantifier": "for all sequences of calls, configurations, caches, keys, and failures of launching and shutting down", "why_tests_cant": "leaks and stale answers show only in particular sequences of starts, failures and look-ups; there are infinitely many", "anchors": ["src/ecalc_neqsim_wrapper/java_service.py:17-300", "src/ecalc_neqsim_wrapper/cache_service.py:118-185", "src/ecalc_neqsim_wrapper/fluid_service.py:164-184"]}
{"id": "C111", "title": "The references found in a model are those of its expressions", "statement": "`extract_expression_references(model)` returns, each once, exactly the references of the expressions of the model: the strings and numbers in fields (of the model or of any model inside it, at any depth) at places where the annotation has YamlExpressionType; it raises exactly when one of them cannot be read. Holds for classes whose expressions and models are in the field itself, in a list, in a dict or in lists in a dict, where no field with expressions also allows a single model or other text elsewhere. Whatever the classes, a reference only comes from a field that allows expressions. Findings: a field `YamlExpressionType | Model` loses the expressions of the model; lists of lists are not searched; the names in `YamlExpressionType | list[str]` are taken for expressions.", "quantifier": "for all model trees, class declarations, annotations (unions, lists, dicts, Annotated, nested arbitrarily), values and readings of expressions", "why_tests_cant": "the walk is recursive over arbitrary classes and nestings; tests try a dozen small models, and none mixes shapes", "anchors": ["src/libecalc/expression/extract_expressions.py:23-159", "src/libecalc/presentation/yaml/yaml_types/components/yaml_expression_type.py:50-54"]}
{"id": "C112", "title": "Resolving the definitions of a model replaces the names of definitions and nothing else", "statement": "In `resolve_definitions(model, definitions)` every string at a place typed `T | DefinitionReference` (in a field, in lists or dicts, at any depth of models) is replaced by the definition of that name; every other value, class, length and key is as before, in the same place. It raises KeyError exactly when such a name has no definition, with such a name. Resolving again changes nothing if the definitions are models without names. Findings: names in an optional list, or in an Annotated item, are left; names inside a definition are not resolved.", "quantifier": "for all model trees, class declarations, annotations, definitions and paths", "why_tests_cant": "the resolver is recursive over arbitrary classes; tests try single fields, and one dict", "anchors": ["src/libecalc/presentation/yaml/definition_resolver.py:19-114", "src/libecalc/presentation/yaml/yaml_types/process/yaml_process_references.py:5-6"]}
{"id": "C113", "title": "Pump process simulations from the YAML file to the results", "statement": "get_pump_process_simulations maps every pump process simulation of a model to a pump, one input per period of the calculated time, and those periods. The pump has the curves of the file its CHART refers to and the minimum flow given, or else the smallest rate of the curves. The input of a period consists of the values the expressions RATE, PRESSURE, DENSITY and REQUIRED_DISCHARGE_PRESSURE have in that very period (mass rate = rate * density / 24; a pump without flow and without a positive target gets its suction pressure as target). The mapping succeeds exactly when every simulation has such a pump and, in every calculated period, a rate and a discharge pressure that are not negative, a positive suction pressure and density, and a positive discharge pressure where there is flow; otherwise (with the pumps fine) it is a validation error. A CHART that names nothing, or something that is no pump chart, is refused with that name. Whatever has been mapped can be evaluated in every period, for every shape of chart, as long as no value is NaN.", "quantifier": "for all models, chart files, variables, calculated periods on dates of the time vector, and lists of simulations with usable expressions", "why_tests_cant": "Tests map one or two simulations with constant inputs; that index arithmetic between periods and values is right for every calculated period, and that acceptance by the mapper rules out every error later, concerns all inputs.", "anchors": ["src/libecalc/presentation/yaml/mappers/pump_process_simulation_mapper.py", "src/libecalc/presentation/yaml/model.py", "src/libecalc/presentation/yaml/domain/expression_time_series_fluid_density.py"]}
{"id": "C114", "title": "Which installations the YAML schema lets through, and how a field over time is read", "statement": "A dict in a field that may change over time is taken as a model over time exactly if it has a key and all its keys are dates or all are periods; with dates or periods among other keys it is handed to the validation of dates; with neither it is one value. A field read over time is a dict in which every key is an instant and every value is valid; no instant comes twice and an instant has the value of its last entry; with distinct instants the order of the document is kept. A field that is refused is a validation error, unless a key is no text, date or period. An installation passes exactly if: it has at least one generator set, fuel consumer or venting emitter; names of installations, generator sets and emitters have only the allowed characters; every generator set has a consumer, and gives CABLE_LOSS or MAX_USAGE_FROM_SHORE only if its category is POWER-FROM-SHORE at some date; no consumer has models of two types; no rate has both CONDITION and CONDITIONS or an empty list of conditions. Findings: a date and its midnight as two keys silently drop the first value; a key that is a number, like a year, ends in an AttributeError.", "quantifier": "for all documents, keys, ways to read texts as dates, validators of the values, and installations with any number of generator sets, consumers, emitters and models", "why_tests_cant": "tests try a few dicts; that the rule looks at the keys alone, treats every mixture of keys, and keeps the last of equal instants needs every list of keys, and the rules must hold for installations of any size", "anchors": ["src/libecalc/common/time_utils.py:338-389", "src/libecalc/presentation/yaml/yaml_types/yaml_temporal_model.py:12-46", "src/libecalc/presentation/yaml/yaml_types/yaml_default_datetime.py:9-19", "src/libecalc/presentation/yaml/ltp_validation.py:5-26", "src/libecalc/presentation/yaml/energy_model_validation.py:9-25", "src/libecalc/presentation/yaml/yaml_types/yaml_stream_conditions.py:27-107", "src/libecalc/presentation/yaml/yaml_types/components/yaml_generator_set.py:14-56", "src/libecalc/presentation/yaml/yaml_types/components/yaml_installation.py:34-93", "src/libecalc/dto/utils/validators.py:10-14"]}
{"id": "C115", "title": "From the time series of a model to its variables", "statement": "Of the collections with a name the last one whose file exists is in effect, and each name counts once. A reference is found exactly if it is NAME;COLUMN, with one semicolon, for a collection in effect and a column of its file (headers compared up to case, the first one wins); the series found has the rows of the file in the order of their dates and the interpolation and extrapolation of the collection: a DEFAULT collection holds a value until the next date and is zero after the last, a MISCELLANEOUS one says what it wants and does not extrapolate by default. The dates that influence the time vector are exactly the dates of the files of collections in effect that ask for it. With valid files the variables of the model are exactly the columns of the collections in effect, each once, and each has at the start of every period the value that its rows and the rule of its collection give. Finding: of two columns whose headers differ in case only both references give the first.", "quantifier": "for all lists of collections, all files with any number of dates in any order and any columns, all references and all lists of periods", "why_tests_cant": "tests have one or two collections with sorted files; that every reference resolves to the right column of the right file and to the right value between, before and after its dates needs all of them", "anchors": ["src/libecalc/presentation/yaml/domain/time_series_collection.py:17-76", "src/libecalc/presentation/yaml/domain/time_series_collections.py:12-65", "src/libecalc/presentation/yaml/mappers/variables_mapper/variables_mapper.py:105-115", "src/libecalc/presentation/yaml/domain/time_series.py:11-105"]}
{"id": "C116", "title": "An uploaded archive is taken apart completely: every file is valid, invalid or hidden, and one is the main file", "statement": "An uploaded archive is accepted exactly if every csv and yaml file in it can be read and no two of them have the same path. Then the valid files are exactly the visible csv and yaml files (endings in letters of any case) and the invalid files all other visible ones, each once and in the order of the archive, with its path, name, content and type; folders and files whose path contains .DS_Store or __MACOSX are left out. If it is refused, it is no archive, or the first csv or yaml file that cannot be read decides the error, or two have the same path; nothing else in the archive is read. Uploads without an archive are each valid or invalid by their ending, with their own content, and an archive cannot be combined with other files. The main file is the only yaml file with one of the main words, whatever the order of the files; none, several, or a yaml file that is not UTF-8 are refused. It is recorded that a file is dropped silently if a folder of its name exists where the process runs, that endings in capital letters count only inside archives, and that a yaml file that is not UTF-8 raises a UnicodeDecodeError.", "quantifier": "for all archives (entries, names, contents, damage), all lists of uploads and all folders of the server", "why_tests_cant": "that no file of an archive is lost or mixed up, and which error comes first, concerns all combinations of entries; tests upload a few", "anchors": ["src/libecalc/infrastructure/file_io.py:15-212", "src/libecalc/infrastructure/file_io.py:328-384"]}
{"id": "C117", "title": "A component of a consumer system answers each enquiry as if it were the first, though its model remembers inputs", "statement": "Models of compressors are objects that keep the inputs set last, and asking for a maximum rate or running a root finder sets them too. Whatever a consumer system asks a component (maximum rates, evaluations, in any order and number, also after exceptions), each answer is the one a newly built component would give to that enquiry alone. A compressor outside consumer systems gives the result of the inputs applied to it whatever it was used for before, and reports the pressures of these inputs as the requested ones. In the result of a train each time step is calculated from its own rates and pressures and the component's fluid model, powers are adjusted where positive, and a turbine is run with the power of exactly the result the compressor alone would give. The maximum rates of a train are zero where a pressure is not positive and else what the calculation gives. The maximum rates of a train with a turbine are those of the train alone, except in the time steps in which the train alone takes more power at that rate than the turbine delivers: there it is what the root finder makes of the power of this time step alone, and if the root finder ends within the tolerance, the power at the rate found is at most what the turbine delivers. It is recorded that the maximum rate of a sampled compressor with a turbine ends with an AttributeError for all inputs, that a component cannot evaluate a train with control of an interstage pressure, and that the maximum rate disregards the adjustment of the energy usage, so the load at that rate may be above what the turbine delivers.", "quantifier": "for all facility models (any calculation of time steps, any turbine, any root finder), fluid models, sequences of enquiries and states", "why_tests_cant": "a trace left by an earlier enquiry shows only for certain sequences; tests build a new model for each case", "anchors": ["src/libecalc/domain/process/compressor/core/base.py:19-140", "src/libecalc/domain/infrastructure/energy_components/legacy_consumer/system/types.py:15-117", "src/libecalc/domain/process/compressor/core/train/base.py:132-247", "src/libecalc/domain/process/compressor/core/train/base.py:357-418", "src/libecalc/domain/process/evaluation_input.py:54-133"]}
{"id": "C118", "title": "A sampled compressor or table is built from the columns its file names, whatever the order of the columns", "statement": "A sampled compressor is built from a file exactly if its column for energy is there and consists of numbers: FUEL if there is a header written exactly so, else POWER. Then the energy usage is that column, the type of energy follows it, rate, suction pressure and discharge pressure are the columns of these names (up to case, the first one) if such columns of numbers exist, and POWER beside FUEL is the power for interpolation. The compressor is the one built from these data; a refusal comes from the file exactly if the column for energy cannot be read, and names that column. Files that have the same columns in another order give the same compressor. A table is accepted exactly if every cell is a number, and each header then has the values of its own column.", "quantifier": "for all files (headers, cells, any conversion of text to numbers and of case), all engines of the sampled compressor; for order and tables: all files with a column for each header and headers distinct up to case", "why_tests_cant": "tests read a few well formed files; whether a column is mistaken for another or lost depends on headers, order and cells in any combination", "anchors": ["src/libecalc/presentation/yaml/mappers/consumer_function_mapper.py:786-818", "src/libecalc/presentation/yaml/mappers/consumer_function_mapper.py:884-898", "src/libecalc/presentation/yaml/mappers/facility_input.py:13-17", "src/libecalc/domain/resource.py:19-28", "src/libecalc/presentation/yaml/yaml_entities.py:35-56"]}
{"id": "C119", "title": "A section of a document that has invalid entries still gives all its valid ones, under their own names", "statement": "The sections of a YAML document are also read before it is validated. A section that is a list gives exactly its valid entries in their order; an invalid entry, wherever it is, changes nothing about the others, and a section that is missing, null or of another type counts as empty. If all entries are valid the reference service has each at its position in the document. A section of names gives under each name what the entry under that name becomes, if valid (for variables the name must be valid too), in the order of the document, each name once. The definitions give the valid process units and fluids; reading them fails, always with an AttributeError, exactly if one of the two is there and is not a dict.", "quantifier": "for all documents, keywords and notions of validity (any result of validating an entry)", "why_tests_cant": "tests have one invalid entry in one place of one section; that no entry hides or replaces another concerns every document", "anchors": ["src/libecalc/presentation/yaml/yaml_models/pyyaml_yaml_model.py:283-309", "src/libecalc/presentation/yaml/yaml_models/pyyaml_yaml_model.py:347-536", "src/libecalc/presentation/yaml/yaml_reference_service.py:93-109"]}
{"id": "C120", "title": "Expressions given at dates are in effect from their date to the next one", "statement": "convert_expression turns a dict of dates in order of time into periods such that at each instant (before the end of time) exactly the expression of the latest date not after it is in effect, none before the first date, and never two. The dict is converted exactly if each of its expressions is. Expressions under periods stay under them, and those under texts of periods come under the periods the texts stand for. A list is converted one by one, or not at all. Dates written as ISO texts are recognised as a model over time but never converted: the conversion always fails.", "quantifier": "for all dates, periods, texts and expressions (values may be dicts themselves), any reading of dates and setting up of expressions", "why_tests_cant": "tests have two dates in order; gaps and overlaps show only at certain instants for certain dates", "anchors": ["src/libecalc/dto/utils/validators.py:19-52", "src/libecalc/common/time_utils.py:25-32", "src/libecalc/common/time_utils.py:338-383"]}
