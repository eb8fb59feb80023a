# Formal model of eCalc — design

Source of truth: `/repo` (equinor/ecalc, pinned commit), read as text only; nothing of it is run or extracted.
Model and proofs: `/verif/lean` (Lean 4.33.0, Lake project, single Mathlib modules).

## Layout

* `properties.jsonl` — the properties, one per line.
* `lean/Verif/Model/*.lean` — executable model, function by function; every definition cites file and lines.
* `lean/Verif/Lemmas/*.lean` — helper lemmas (no claims).
* `lean/Verif/Props/Cxx.lean` — per property: specification predicates (stated without the model's helpers), the
  theorems (`Cxx_...`) and, next to them, an `example` meeting their hypotheses.
* `MANIFEST.json` — which theorems establish which property. `AXIOMS.md` — axioms of every one of these theorems.
* `seeded/LOG.jsonl` — wrong programs (edits of the model) the theorems were tried on.

## Modelling conventions

* `datetime` → `Int` (microseconds since datetime.min); `datetime.min` / `datetime.max` are the constants `dtMin`, `dtMax`.
* `float` → `ℚ` (exact arithmetic, no rounding, no overflow); NaN and infinities are `Option.none` where the code
  can produce them (`Fl`). `Model/Solver` tells NaN and the infinities apart (type `F`).
* Python exceptions → values of `Except`. Messages and ids inside exceptions are dropped.
* `dict` → association list in insertion order; `set` → list without repetition, only membership is used.
* numpy operations on arrays → list operations; shape errors are explicit.
* `while` loops and recursion without an obvious measure take fuel; a theorem shows that the fuel is enough
  (C17, C27, C33, C64), or the loop has an iteration limit in the code as well.
* Third party code appears in three ways. (1) Written out after its documentation: `scipy.interpolate.interp1d`,
  `networkx` traversals, `pandas.date_range`, `numpy` reductions. (2) As an arbitrary function, so theorems hold for
  anything it may return or raise: NeqSim thermodynamics (`FluidService`), `scipy.optimize.root_scalar`, `shapely`
  distances. (3) As a function about which a hypothesis is made where a theorem needs one (for example a continuous
  monotone outlet pressure); the hypothesis is part of the statement.

## Trusted base

* The Lean 4 kernel; the axioms `propext`, `Quot.sound`, `Classical.choice`. No axioms are added, there is no `sorry`,
  no `native_decide`, no `bv_decide`. `AXIOMS.md` lists the axioms per theorem.
* Faithfulness of the model to the Python text. Each definition cites the lines it was read from, and says where it is
  simpler than they are.
* Exact arithmetic instead of IEEE-754: statements about equality of totals, round trips and so on hold up to rounding
  in the program. Thresholds in the code (1e-5, 1e-7, 1e-15, ...) are kept as exact numbers.
* The documented behaviour of the third party functions under (1).

## What is modelled

| model file(s) | source (below `src/libecalc` unless noted) | what |
|---|---|---|
| Time, Calendar | common/time_utils.py, common/temporal_model.py | Period, Periods, Frequency, TemporalModel; default_temporal_model, define_time_model_for_period. Time zones do not occur in the code. `pandas.date_range` for the frequencies used. |
| Rates | common/utils/rates.py | TimeSeries and its subclasses for float, int, boolean, volumes, cumulative volumes, rate, stream day rate; Rates.*. Of `TimeSeries.resample` (generic forward fill) only the parts used by the subclasses. |
| Units | common/units.py | all conversions |
| InputSeries, Resource | presentation/yaml/domain/time_series*.py, yaml_entities.py, mappers/variables_mapper/get_global_time_vector.py | reading time series resources, fitting to the global time vector. Parsing of numbers and dates from text is a parameter. |
| Lexer, Expression, Variables, Inputs | expression/*.py, common/variables.py, mappers/variables_mapper, domain/regularity.py, presentation/yaml/domain/expression_time_series_*.py, emitters/venting_emitter.py | lexing, parsing to trees, writing out and evaluation of expressions, variables, regularity, conditions, loss factors, venting emitters |
| Fuel, Genset, Turbine, Table, Consumer | domain/infrastructure/energy_components/** | fuel and emissions, generator sets, turbines, tabulated and direct consumer functions, concatenation of results. Not: tables of several variables (LinearNDInterpolator). |
| System | legacy_consumer/system/*.py, common/priority_optimizer.py | operational settings, cross-over, choice of setting |
| Totals, Intensity, Exporter, Compare | presentation/json_result/mapper.py, domain/.../installation.py, presentation/yaml/model.py (validity), domain/emission, presentation/exporter, presentation/simple_result | totals per installation and asset, emission intensity, LTP/STP exports, comparison of two results. Not: text formatting of tables. |
| Graph, Names, Version, Cache | common/graph.py, energy_container_energy_model_builder.py, yaml_asset.py, common/version.py, ecalc_neqsim_wrapper/cache_service.py | component graph, uniqueness of names, versions, LRU cache under concurrent use |
| Search, Solver, Finders | common/numeric_methods.py, process/process_solver/{search_strategies,solver,float_constraint,configuration}.py, finders/*.py | bisection, golden section style searches, constraints with tolerance, choke / recirculation / speed finders |
| ProcessUnits, Loops, Pipeline, Shafts, Distribution | process/fluid_stream, process/process_units, process/process_pipeline, process/shaft.py, process/stream_distribution, mappers/process/process_partitioner.py | streams, compositions, mixing, chokes, compressors (thermodynamics abstract), recirculation loops, pipelines and their partitioning, shafts, distribution of streams |
| Chart, CompressorChart, GenericChart | domain/process/value_objects/chart/** | chart curves, control margin, chart envelope, capacity, single point evaluation, generic charts from design point and from input. The distance to a curve is abstract. |
| Pump | process/pump/*.py, domain/process/pump/pump.py, mappers/pump_process_simulation_mapper.py | both pump models |
| Stage | domain/process/compressor/core/train/stage.py (evaluate, get_compressor_inlet_stream), rate modifier, splitter, mixer and compressor of the stage | evaluation of one stage; evaluate_given_target_pressure_ratio is left out |
| Train | domain/process/compressor/core/train/{base,compressor_train_common_shaft,train_evaluation_input}.py, stage.py (target pressure search), core/results.py (single time step) | common shaft train with variable speed: ports, speed search, pressure controls, two pressures, status, maximum rate. A stage is abstract (its own model is Stage); root finders are abstract; one rate per port. Not: fixed_speed, single speed shafts, results.py over several time steps. |
| Section | process/process_solver/{process_pipeline_runner,pipeline_section_solver,solver_assembly}.py, anti_surge/*.py, pressure_control/*.py | solver for one section: speed search, anti-surge, the five pressure controls; handlers as threaded state. What a search leaves in the handlers it varies is arbitrary where it is overwritten before use. |
| Sections | process/process_solver/{multi_shaft_solver,multi_shaft_equal_ratio_solver,multi_pressure_solver}.py | solvers for several sections, all with one environment; validation of the sections. Logging and ids in failures left out. |
| Assembly | process/process_solver/section_assembly.py, solver_assembly.py (wiring), presentation/yaml/mappers/process/mapped_section_validator.py, build_sections.py, process_simulation_mapper.py (placement of units and constraints) | validation and assembly of sections. Ids are numbers from a counter. Mapping of the units themselves and events are left out. |
| Sampled | domain/process/compressor/core/sampled/compressor_model_sampled.py, compressor_model_sampled_1d.py | validation, constant variables, evaluation, turbine table; one-dimensional interpolation. Values finite and exact; the two- and three-dimensional interpolators are a parameter; texts in columns not modelled. |
| Planar | domain/process/compressor/core/sampled/convex_hull_common.py (two dimensions), compressor_model_sampled_2d.py | lower and upper half of the hull, the monotonic upper part, the curves, projection, evaluation, maximum rate. `scipy.spatial.ConvexHull` and `LinearNDInterpolator` are parameters with a stated contract (`C81.Promise`); `argsort` is a stable sort; `get_max_discharge_pressure`, which nothing calls, not modelled. |
| Feasibility | process/process_solver/feasibility_solver.py, process/stream_distribution/*.py, presentation/yaml/mappers/process_simulation_mapper.py (StreamDistributionItem) | excess rate of a train; distribution of streams to trains with settings threaded through and exceptions. Floats exact; the bisection is the one of Search, for a function with effects. |
| Campbell | domain/process/compressor/core/train/utils/enthalpy_calculations.py:144-280, base.py:30-34, utils/common.py:112-131 | Campbell's formulas over the real numbers |
| Outlet | domain/process/compressor/core/train/utils/common.py:27-82,134-302, process/fluid_stream/fluid_property_validation.py | the outlet iteration of a compressor. Flash and Campbell's pressure are parameters; not-finite properties are an absent state. |
| Simplified | domain/process/compressor/core/train/simplified_train/simplified_train.py, stage.py:349-469, utils/enthalpy_calculations.py:22-141 | evaluation and maximum rate of simplified trains. Thermodynamics and stage efficiency are parameters; the stage ratio is given (its n-th root is in Campbell); one stream. |
| Numbers | common/math/numbers.py | numbers shown with a precision, rounding of nested results. Exact decimals. |
| Files | infrastructure/file_io.py | sorting, naming and linking of uploaded files. Contents of archives and the random suffix of very long names are left out. |
| Dates | presentation/yaml/domain/time_series_resource.py:120-228 | the accepted patterns for dates as regular expressions; pandas is a parameter; the text of the error is left out. |
| Slices | presentation/yaml/yaml_models/pyyaml_yaml_model.py:661-693, presentation/yaml/model.py:272-310, mappers/consumer_function_mapper.py:984-993 | dates found in the YAML file, periods of the run, and the part of the run given to each model of a consumer. |
| Run | presentation/yaml/model.py:453-640, mappers/component_mapper.py:268-718, domain/default_process_service.py | setting up the energy model and the process service from a file and evaluating a whole run; uuid4 is a counter; validation errors of the mapping and the mapping context are left out. |
| SystemMap | consumer_function_mapper.py, yaml_energy_usage_model_consumer_system.py, operational_setting.py | mapping of consumer systems to operational settings |
| References | yaml_reference_service.py, presentation/yaml/model.py:347-353, model_reference_validation.py, yaml_compressor_trains.py:150-181, yaml_energy_usage_model_consumer_system.py:131-161, consumer_function_mapper.py:306-848 | the dict of references, validation of references, and which items a compressor model is made of; items are types and references only. |
| StreamMap | consumer_function_mapper.py:354-402, 695-785, core/train/base.py:62-130, compressor_train_common_shaft.py:205-256 | mapping of trains with several streams: kept stages, ports, and which rate and fluid each stage is given. |
| ConsumerMap | consumer_function_mapper.py:166-272, 998-1366, 1656-1702, energy_usage_model/*.py | energy usage models of single consumers: conditions, loss, direct, tabular, pump, compressor, several streams; references are parameters. |
| Prognosis | presentation/exporter/{configs/configs,appliers,aggregators,dto/dtos}.py, formatters/* | the columns of the long and short term prognosis as data; applying them, laying out the file |
| Prepare | simplified_train_mapping_utils.py:61-83, consumer_function_mapper.py:540-692, generic_from_input_chart_data.py, enthalpy_calculations.py | number of stages, pressures and generated charts of simplified trains from operational data; head iteration for several streams |
| Report | domain/process/compressor/core/results.py, core/results/compressor.py, json_result/mapper.py:604-663 | time series of trains and stages from results of single time steps; requested pressures in systems |
| YamlRead | presentation/yaml/yaml_models/pyyaml_yaml_model.py:91-276 | constructing documents with includes, duplicate keys, the loader's memory; composing (PyYAML) is not modelled |
| ModelFiles | pyyaml_yaml_model.py:283-345, 694-712, yaml_model.py:254-338, file_resource_service.py | names of the files a model needs, reading them, renaming them |
| YamlLocate | presentation/yaml/yaml_models/pyyaml_yaml_model.py, presentation/yaml/validation_errors.py, presentation/yaml/mappers/component_mapper.py | the place of an error in the file, the text of its location, names in the place of numbers |
| Components | presentation/yaml/mappers/component_mapper.py (fuel, models and kinds of consumers and generator sets), the checks of the constructors of fuel consumers and generator sets | resolving fuels, the fuel of the installation as default, leaving out consumers, the check that the fuel covers the models |
| Spatial | domain/process/compressor/core/sampled/compressor_model_sampled_3d.py, convex_hull_common.py (three dimensions) | facets of the convex hull, upper and lower halves, triangles, limits, projections, energies; the hull and the interpolation are parameters |
| ChartFile | user_defined_chart_data.py, resource.py, mappers/utils.py, serializable_chart.py | charts read from files and from YAML, unit conversion, charts in the results |
| Coarse | common/utils/rates.py (TimeSeriesFloat.resample) | resampling of plain float series: look up at the reporting dates, then forward fill |
| ResultTable | tabular_time_series.py, file_utils.py (CSV), results.py (order), component_type.py | tables of result objects of any depth, their resampling, the CSV frame, the order of components |
| Flash | ecalc_neqsim_wrapper/fluid_service.py, parts of thermo.py and mappings.py, fluid_property_validation.py, cache options of run.py | requests to NeqSim behind the two caches, keys, validation of flashes, removal of liquid, rates, configuration; NeqSim is a parameter |
| RunFiles | ecalc_cli/commands/run.py, ecalc_cli/io/output.py, ecalc_cli/main.py, handlers/handler.py | which files a run writes, under which names, in which order, and the status of the process; loading, evaluation and exports are parameters |
| Diagram | flow_diagram/energy_model_flow_diagram.py, flow_diagram_dtos.py | the flow diagram of the graph of a mapped file; the recursion into subdiagrams is bounded by the number of nodes |
| ProcessMap | mappers/process_simulation_mapper.py, mappers/ecalc_event_mapper.py, ecalc_event.py, mappers/fluid_mapper.py, time_series_fluid_model.py | what process simulations, events and fluids of a file are made into; registries of definitions, chart validation and section assembly are parameters; fresh ids are consecutive numbers |
| Java | ecalc_neqsim_wrapper/java_service.py with cache_service.py and fluid_service.py:164-184 | life of the Java service; calls are atomic; launching and shutting down may fail as inputs; what Java computes is a parameter |
| Schema | expression/extract_expressions.py, presentation/yaml/definition_resolver.py | annotations, classes and values; the walk that collects expressions; the resolver of definitions |
| PumpMap | pump_process_simulation_mapper.py, model.py (get_pump_process_simulations), expression_time_series_fluid_density.py, yaml_reference_service.py (get_pump_model) | mapping of pump process simulations |
| Rules | common/time_utils.py, presentation/yaml/yaml_types/*, presentation/yaml/ltp_validation.py, presentation/yaml/energy_model_validation.py | recognising models over time, fields over time, the rules on generator sets, consumers, emitters and installations |
| Collections | time_series_collection.py, time_series_collections.py, variables_mapper.py (map_yaml_to_variables) | collections of time series, references to them, the variables they give |
| Archive | infrastructure/file_io.py (unpack_zip, validate_filetypes, get_type, get_main_file) | unpacking archives and sorting uploads with their contents. What zipfile reads and which paths are folders of the server are parameters; messages dropped. |
| Facility | core/base.py, train/base.py, compressor_model_sampled.py, evaluation_input.py, system/types.py | models that remember their inputs: setting inputs, evaluating, maximum rates with and without turbine, components of consumer systems, any root finder |
| SampledFile | consumer_function_mapper.py (_create_compressor_sampled, create_tabular_model), facility_input.py (_get_float_column_or_none) | sampled compressors and tables from the columns of a file; locations of errors in the YAML dropped |
| Lenient | pyyaml_yaml_model.py (sections), yaml_reference_service.py (positions) | sections read without failing; validation of an entry is a parameter |
| ConvertExpr | dto/utils/validators.py (convert_expression, convert_expressions) | expressions over time; strptime and the set up of expressions are parameters |

## What is not modelled

* Reading and validating YAML (pydantic models apart from the validators named above), the YAML writers, file access,
  the command line, logging, feature flags, flow diagrams.
* The mapping of component definitions to domain objects (component_mapper.py, most of consumer_function_mapper.py and
  process_simulation_mapper.py).
* Everything inside NeqSim and its Java bridge.
* Sampled compressor models (convex hulls over measured points) apart from what is listed above.

## Departures from the expected behaviour found

Each line names the theorem holding the witness. "Expected" is what the documentation, a docstring or the evident use
of the function promises.

* **C06** when the first date has a later time of day than the last, a frequency date strictly between them can be missing from the reporting dates
* **C09** volumes after the last midnight are dropped on resampling; no reporting period at all → IndexError
* **C10** with stream day rates of opposite sign the stream volumes of a reporting period can cancel to zero although the calendar volumes do not; the resampled series then loses that volume
* **C11** resampling booleans from a start that is not midnight with the start included → ValueError
* **C12** adding rates with different regularities gives a NaN regularity where the summed rate is zero
* **C13** extending a rate does not check that the periods follow each other
* **C18** operands without an operator between them are dropped silently; parentheses without content → IndexError
* **C19** get_subset for the last time step → IndexError; for a period beyond the end → ValueError
* **C20** a variable with unsorted dates exchanges its definitions
* **C21** regularity given as the number 0 becomes 1
* **C22** a condition given as the number 0 is dropped; venting emitters ignore CONDITIONS lists; a NaN counts as true when it is the only condition and as false among several
* **C23** a power loss factor of 1 gives infinite, a factor above 1 negative usage
* **C25** what a consumer hands over is worked out from the rates before cross-over: in a chain 1 → 2 → 3 the second keeps what it got even above its maximum
* **C26** no priorities → IndexError; a first priority without results → TypeError
* **C27** bisection and maximisation never try the lower end
* **C29** the overload flag compares the uncalibrated load; loads below the table use no fuel
* **C30** in a period where no generator set is in force the fuel of the last period with one is reported again (marked invalid)
* **C31** emission names of one fuel differing only in case are accepted and then fail with AssertionError
* **C32** of emissions with the same name in one venting emitter only the last is kept
* **C33** get_predecessor for a component with several predecessors raises TypeError when ids are UUIDs
* **C34** malformed version strings are read as 0.0.0; a trailing newline is accepted; negative numbers do not survive a round trip
* **C35** without a model name in the validation context component names are not checked
* **C36** a negative maximum size makes every put raise KeyError
* **C37** rates in declared order are paired with topologically sorted items; a second overflow from the same source is ignored
* **C39** != with something that is no number answers False; equality with tolerance is not transitive; a negative tolerance → ValueError
* **C40** the upstream choke finder may get a bracket without change of sign; AssertionError when the unchoked pressure is below the target
* **C41** above the stone wall the recirculation range is [0, 0]
* **C43** an outlet constraint together with one on the last unit → IndexError; constraints on units of another pipeline are ignored; without constraints all units are dropped
* **C45** disjoint speed ranges give an empty range without error; a compressor connected late to a single speed shaft never gets a speed
* **C46** a component with fewer periods is compared misaligned; a change of power is lost when one side has none
* **C47** NaN of one consumer hides the total of its group; "maximum usage from shore" is not the maximum over the period
* **C48** an empty table keeps one column; of headers equal up to case only the first is reachable; DATE is chosen case sensitively and read case insensitively
* **C49** root finding on a flat function → ZeroDivisionError
* **C51** validity is judged before the power loss factor; one model without power makes the consumer's power None
* **C52** a CONDITION that is false does not switch a tabulated consumer off (the documentation says the usage will be 0); a table with POWER and FUEL columns takes FUEL as a variable
* **C53** an installation without any component → AssertionError
* **C54** DidNotConvergeError although the smallest recirculation rate meets the target; insufficient inlet pressure at the largest rate is not handled
* **C55** "EOS failed at all speeds" when only both ends fail; DidNotConvergeError when only the largest speed works
* **C56** control margin 1 leaves a single point, margins above 1 or below 0 are accepted
* **C57** a pump without flow is valid although its outlet is below the required pressure
* **C58** above the chart the largest rate is the (positive) smallest rate of the fastest curve
* **C59** the reported head is not the head used for the power; the announced maximum rate fails above the chart; the added 1e-15 puts a point of a flat curve above the chart
* **C62** no flow without anti surge valve raises IllegalStateException; recirculated flow above the chart is accepted on a curve but raises between curves
* **C64** without choking a point may stay below the stone wall of the fitted chart, against the docstring
* **C65** a negative number in `Expression.multiply` prints to text that is refused; `12e5` inside an expression is the number 12 and a reference e5; an overflowing literal prints as `inf` and comes back as a reference
* **C66** a splitter that receives no flow divides by zero
* **C68** a power limit of 0 is no limit
* **C70** INDIVIDUAL_ASV_PRESSURE evaluates the stages without rates: gas to be taken out by a splitter stays in (and a mixer raises), and the power limit is not applied; DOWNSTREAM_CHOKE with a maximum discharge pressure keeps the power status from before; COMMON_ASV returns a result at another rate when the target is out of reach
* **C71** a downstream choke ahead of the cut makes every result in which it acts invalid; IndexError when the part behind the cut has fewer stages than the part ahead of it and a choke
* **C72** the maximum rate of a train with anti-surge control depends on the evaluation before it (rate modifiers are not reset); 0 is returned for trains that take positive rates with recirculation in the first stage
* **C74** `UpstreamChokePressureControlStrategy.apply` returns the choke of the root but the recirculation rates of the probe made last. If the root finder's last probe is not the root it returns (scipy's brentq does not promise this) the rates do not fit the choke; a section reported as solved can be in surge.
* **C74** `IndividualASVPressureControlStrategy.apply` sets each stage to its share of the pressure ratio and never looks at the section outlet: pressure lost behind the last compressor is missing although success is reported.
* **C75** `MultiPressureSolver` only tries the largest of the speeds found section by section. At that speed a later section can be fed hotter gas than when its speed was found, and its target is reported as above the maximum although the shaft is not at its top speed and a higher speed delivers all targets.
* **C75** `MultiShaftSolver` does not check that the shafts differ. Sections sharing one give a success whose configuration sets the shaft twice; the first section then misses its target.
* **C76** Validation accepts `ANTI_SURGE: COMMON_ASV` together with a choke for pressure control and several compressors; `assemble_solver` then fails with an AssertionError (one loop, several compressors).
* **C76** `constraint_position` in `map_process_simulation` is compared with `nr == len(...)`, which never holds: the constraint of every section but the last is placed on the second-to-last unit, in front of a final pressure dropper, for example.
* **C77** A liquid remover inside an anti-surge loop with wet gas: the recirculated rate is added to the wet stream and part of it is removed again, so anti-surge reports success with a rate that leaves the compressor in surge; the solver then reports surge although a larger rate solves the section.
* **C78** `FeasibilitySolver._largest_feasible_rate` accepts every probe (`accepted=True`), so it returns the last rate tried, which in about half of the cases is one the train refuses; after overflow the train is left with a rate it cannot handle, and with priorities `is_valid` is then False for the very stream that was cut back to fit.
* **C78** A train that handles no rate at all (target out of reach) is not left with 0 but with the last midpoint, a small positive rate, and so stays invalid.
* **C79** Because of the finding at C78, `PrioritiesStreamDistribution` can skip a priority whose overflow would fit: two trains of 60000 Sm3/day sharing 105000 with overflow get 60000.7 and 44999.3, the first one is refused, and the next priority (10500 and 94500) is used.
* **C80** `CompressorModelSampled.get_max_standard_rate` calls `get_max_rate()` without arguments, but the two- and three-dimensional models need pressures: a TypeError whenever the rate and a pressure vary. A consumer system with crossover from such a compressor cannot be evaluated.
* **C80** `CompressorModelSampled1D` joins the repeated values as if they were texts (line 109), so the user sees a TypeError and not the message about non-unique values.
* **C81** `get_lower_upper_qhull` puts a facet through the middle of the bounding box in both halves (`>=` and `<=`). For a triangular table (rates 1,2,3 at 10; 1,2 at 20; 1 at 30) the minimum rate at 20 becomes 2, so the sampled point (1, 20) is evaluated at (2, 20). With floats the classification of such a facet is decided by rounding.
* **C81** `CompressorModelSampled2DRatePd` and `…RatePs` index the first row of an empty array (IndexError, no message for the user) when the upper half has no facet with the expected slope, that is when the highest rate is sampled once and at the highest discharge (lowest suction) pressure.
* **C81** Read but not modelled: `get_max_discharge_pressure` for a rectangular table returns the lowest discharge pressure for rates below the maximum (ties on the rate, the top facet is dropped). In three dimensions the middle of the bounding box can lie outside the hull, and then a whole side is put in the wrong half; `_setup_maximum_rate_projection_functions` takes fill values from rows sorted by the wrong column.
* **C71** With a target between two stages, the two parts of the train are built without the limit on the pressure ahead of a downstream choke (`maximum_discharge_pressure` is not passed on, compressor_train_common_shaft.py:1220-1259): the limit has no effect on the result (`C71_limit_ignored`).
* **C83** The cap of 2000 bar (`MAX_FIRST_GUESS_BAR`) applies to the first flash only, not to the result. A calculation that does not converge in thirty rounds is logged and its last state used. The pressure of a flash result is not compared with the pressure that was asked for.
* **C84** The stage evaluation calls `flash_ph` directly: the result is not validated and a `FluidFlashCalculationError` escapes, unlike in the search for the maximum rate.
* **C84** For a head above the fastest curve the maximum rate is that of the first point of the curve, although no rate is valid (`C84_unattainable`).
* **C84** The maximum rate ignores the maximum power, which the docstring says it considers; a maximum power of 0 means no limit; a train over its capacity never exceeds the maximum power, because its power is not a number.
* **C84** The chart area says below minimum flow when gas is recirculated, even when the head is above the chart.
* **C85** The documentation says numbers below `10^-precision` become 0, but only those up to half the last decimal do (0.006 with precision 2 gives 0.01; `C85_zero`).
* **C85** Small negative numbers are shown as `-0` (`C85_minus_zero`); precision −1 is accepted although the message says at least 0, and then 1 is shown as 0 (`C85_minus_one`).
* **C86** `strip_common_path` removes the text of the common directory wherever it occurs: with main file `a/main.yml`, `a/data/x.csv` becomes `datx.csv` (`C86_relative_path_broken`).
* **C86** `rename_duplicates` can produce the name of another file (`C86_name_collision`).
* **C86** `allowed_file` raises IndexError for a name ending in a dot; upper-case endings are refused although the type tests ignore case; `is_zip` is a substring test, so a name without suffix counts as zip (`C86_endings`).
* **C87** Fractions of a second match the ISO pattern, but the dot is turned into a dash before pandas reads it (`C87_fraction`).
* **C87** With a time, ISO dates may mix separators and need two-digit months; without, they may not mix and one digit is enough. Minutes without seconds are accepted only day first.
* **C88** Without START the models are restricted to what follows 1900-01-01, not to the run: a later date of a model between 1900-01-01 and the first date of the run ends in a ProgrammingError ("contact eCalc support") or, when equal to the first date, an IndexError (`C88_dates_before_the_run_fail`).
* **C88** A date written with quotes is accepted as the date of a model but is not found by the search for dates; inside the run it ends in a ProgrammingError (`C88_unseen_dates_fail`).
* **C90** Giving both RATES and RATE_FRACTIONS in an operational setting is accepted and the rates are silently ignored (C90_fractions_win); giving neither is a TypeError, fractions without TOTAL_SYSTEM_RATE and pump systems without a fluid density are AssertionErrors (C90_missing).
* **C90** The rate of a consumer is the text "(total) {*} (fraction)" read again, so a comment in the total swallows the rest (C90_comment), a negative number cannot be read (C90_negative), and a total such as "a) {+} (b", which is no expression, is accepted and means a + b·fraction (C90_unbalanced).
* **C90** Pressures of pump systems are validated also in periods in which no pump runs; for compressor systems only where they run (C90_pump_stopped).
* **C91** Streams and pipelines are registered under NAME but uniqueness is checked on keys: a stream called like a fuel hides the fuel, two streams with one NAME are silently one, and the key is not a valid reference (C91_stream_hides, C91_fuel_hidden).
* **C91** References to tables are accepted for pumps and for stages but nothing is found when models are created (C91_pump_table, C91_stage_table); generic charts are accepted for trains with speeds and fail with an AssertionError (C91_generic_chart).
* **C91** The validator of a simplified train finds the train by name, so a duplicated name gives an AttributeError instead of the message about names (C91_simplified_duplicate); the compressor of a compressor with turbine that no consumer uses is never looked up (C91_unused_turbine).
* **C92** Rates and fluids of a train with several streams are given to ports by position: streams listed in another order than the stages mention them are silently exchanged (C92_exchanged), and a stream that no stage mentions shifts the rates of all streams after it (C92_shifted).
* **C92** A stage that mentions a stream already mentioned by an earlier stage is silently left out of the train (C92_dropped).
* **C93** A pump without SUCTION_PRESSURE or DISCHARGE_PRESSURE and a compressor train without a pressure, both allowed in the file, end in an uncaught TypeError or AssertionError (C93_pump_no_pressure, C93_train_no_pressure).
* **C93** A pump without RATE is refused without a condition, but with one it is evaluated with rates that are NaN (C93_pump_no_rate).
* **C93** CONDITION: 0 as a number means always on, because the field is tested for truth (C93_zero_condition); a comment is harmless in CONDITION but breaks CONDITIONS (C93_comment).
* **C94** `engineDieselConsumption` and `engineDiesel{Co2,Nox,Nmvoc,Ch4}Mass` of the long term prognosis (configs.py:79-87 and likewise) ask for all diesel, also of boilers and heaters, which have columns of their own: these amounts are reported twice, and the columns do not add up to the total of the short term prognosis (`C94_diesel_twice`)
* **C94** Fuel gas of consumers other than turbines, compressors, boilers, heaters and flare, and all fuel gas on mobile installations, is in no column of the long term prognosis (`C94_gas_nowhere`); carbon dioxide from storage and loading likewise
* **C94** An installation whose category is left out has no emission and no fuel columns (`C94_no_category`)
* **C94** Diesel columns are headed litres, but fuel queries convert nothing (queries.py:67-103): they show the consumption in the unit of the model
* **C95** Heads for charts from input are iterated for all time steps together and judged on the norm of the vector (enthalpy_calculations.py:120-127), while the run iterates each time step alone: the train can be outside its own chart at a time step the chart was made from (`C95_together`)
* **C95** MAXIMUM_PRESSURE_RATIO_PER_STAGE is not checked: 1 is a ZeroDivisionError, below 1 leaves no stages (`C95_maximum`); a suction pressure 0 in any time step is an OverflowError (`C95_zero_suction`)
* **C95** A train with unknown stages without compression in any time step is a ValueError instead of an idle train (`C95_no_compression`)
* **C96** With ENERGY_USAGE_ADJUSTMENT the power of a train is adjusted but not that of its stages, so the stages in the report do not add up to the train (`C96_adjustment_witness`)
* **C97** A resource given as a stream can be included once; the second include of it is null, because the stream has been read (`C97_twice`)
* **C97** The include constructor is kept by the class SafeLineLoader, so that a later reading with includes switched off, or without a place for them, includes from the former place (`C97_former_place`)
* **C97** A syntax error in an included file is reported under the name of the main file (`C97_wrong_file`)
* **C97** Merge keys (`<<`) are refused as a key that cannot be constructed (`C97_merge`); a missing included file in a directory is a FileNotFoundError and a circle a RecursionError, neither of which is a YamlError
* **C98** `update_resource_name` stops at the first match in a section: a file used by two models or facility inputs is renamed in one of them and reported as one update (`C98_twice`)
* **C98** `update_resource_names` renames one after the other, so that exchanging two names does nothing (`C98_swap`); files of DEFINITIONS and PROCESS_PIPELINES are needed but never renamed (`C98_definitions`); a section left empty is a TypeError (`C98_null`)
* **C98** An item of TIME_SERIES, FACILITY_INPUTS or MODELS that is not a mapping is an AttributeError when files are looked up, before the model is validated (`C98_series`)
* **C99** `_get_closest_file_context` puts every name of a path in capitals, so things that the user names in lower case (process units, fluids, inlet streams, pipelines) are not found, and errors in them are reported at the surrounding mapping (C99_lower_case). Dates in the paths that pydantic gives are texts like "datetime.date(2020, 1, 1)", which are never found for the same reason (C99_mapping, second part): errors in a definition of some date are reported at the whole set of definitions.
* **C99** The file context always has the name of the main file, with the lines of an included file if the error is there (C99_included). Lines are counted from 1 and columns from 0, whereas DuplicateKeyError counts both from 1.
* **C99** One key that is not a date among the keys of a mapping hides the definitions of the dates after it (C99_date_hidden).
* **C99** `_get_yaml_path_from_pydantic_loc` drops "single" and "temporal" wherever they are, also when the user has given these names (C99_single).
* **C100** A FUEL (or ELECTRICITY2FUEL) whose first date is at or after the end of the run gives an IndexError from TemporalModel.get_period instead of a message (theorems C100_late_fuel, C100_late_genset).
* **C100** The kind of a consumer is determined from all its models, also those outside the run: a consumer that is a pump during the run becomes a generic consumer if it was a compressor before (theorem C100_kind_unused).
* **C100** An own FUEL that is an empty text or an empty mapping counts as absent, and the fuel of the installation is used. `MAX_USAGE_FROM_SHORE: 0` and `CABLE_LOSS: 0` are treated as absent for the same reason (component_mapper.py; the latter two not modelled).
* **C101** is_inside_triangle accepts every point if the corners of the triangle are on one line (theorem C101_collinear).
* **C101** The facets are classified as upper or lower with the middle of the box around the points, which need not be inside the space: for four points around a corner no facet counts as upper, and the minimum rate is too high or right depending on the order of the facets (theorems C101_box, C101_box_minimum).
* **C102** The rates are divided by round(2 * mean rate / (mean suction pressure + mean discharge pressure)), which is zero for small rates: the table is rejected by the geometric library (theorem C102_scale).
* **C102** The curves for the maximum rate are sorted by the wrong column, so the fill values outside the sampled pressures are exchanged: a higher suction pressure can lower the maximum rate (theorem C102_max_rate_falls).
* **C102** Where no maximum rate is known it is zero, and a rate below the tolerance counts as being at the maximum; its energy is then NaN, also if the rate is below the minimum rate and could be recirculated (theorem C102_small_rate).
* **C103** A chart file for several speeds whose RATE, HEAD or EFFICIENCY header is missing or spelled in another case fails with a KeyError of pandas, which is not turned into an error about the file; single speed files accept any case. The header SPEED is also compared exactly in the one and up to case in the other (user_defined_chart_data.py:63, 90, 99-108).
* **C103** Any further column that is not numeric (say, comments) makes a chart file for several speeds fail, but not a single speed file (user_defined_chart_data.py:94-97).
* **C103** A chart with an efficiency of 0 (or a negative rate or head) is accepted as input, but ChartDTO.from_domain raises a ValidationError when the results are put together; the validator that should leave out invalid charts (results.py:217-224) is never reached.
* **C104** Resampling a plain series (pressures, regularity, efficiency) forward-fills only over values whose period starts exactly on a reporting date (rates.py:196-201, reindex before ffill): a value that changed on 1 July is never shown in a yearly report, which goes on showing the old value for all later years. NaN is also replaced by the value before it, so resampling to the same periods is not the identity.
* **C105** Result objects that are attributes themselves (stream conditions, turbine results) are left out of to_dataframe (tabular_time_series.py:62-96), while resample handles them.
* **C105** Components with the same name get columns with identical headings in the CSV file (only a warning is logged, file_utils.py:124-129); the same clash inside a component raises a ValueError because to_dataframe is called outside the try block (file_utils.py:119-121).
* **C106** `--reference-cache-size 0` and `--flash-cache-size 0` are documented as disabling the caches ("Set to 0 to disable", run.py:104, 110), but `reference_cache_size or defaults...` (run.py:135-136) reads 0 as "not given": the default sizes 512 and 100000 are used.
* **C106** The flash caches round pressures, temperatures and enthalpies to 6 digits and fractions to 8 (fluid_service.py:44-49, 186-224), so the answer to a request can be that of an earlier, slightly different one; a component with a fraction below 5e-9 can be lost. The temperature guess of flash_ph is no part of the key, and a hit is not validated against the new target.
* **C106** Negative cache sizes are accepted; the first put then empties the cache and popitem raises KeyError, so every flash fails (cache_service.py:91-92).
* **C107** Prefixes or model names that differ only after a dot (`base.low.yml`, `base.high.yml`) write the same `base.csv`, `base_intensity.csv` and `base_intensity.json` (run.py:208, 216, 229 use with_suffix and stem), so the second run overwrites the tables of the first; the JSON results have their own names. Likewise the prefix `x_intensity` collides with the intensity table of the prefix `x`.
* **C107** The `ecalc` process ends with status 0 when the model is invalid: main.py:80-84 logs an EcalcError and returns.
* **C107** With an empty prefix (`-n ""`) the tables are written beside the output folder, under its name (`output.csv`).
* **C107** A "/" in the name of an installation is valid (validators.py:10-11) but makes --ltp-export and --stp-export fail with FileNotFoundError after the other files were written (handler.py:79).
* **C109** a change of a process pipeline whose CHANGE_TARGET names no unit of the pipeline ends in a KeyError instead of a validation message (`C109_unknown_unit`)
* **C109** a target listed twice in a process simulation is accepted and gives two pipelines of the same name, the overflow concerning only the last (`C109_twice`)
* **C109** the number of RATE_FRACTIONS is not compared with the number of targets when the file is read (`C109_fractions`)
* **C109** process event names need not be unique; a change refers to the first event that has one of that name (`C109_ambiguous`)
* **C109** CHANGE_FROM is never looked at (`C109_change_from`)
* **C110** a service inside a service: leaving the inner `with` shuts down the service of the outer one (`C110_nested`)
* **C110** a gateway that refuses to shut down leaves its Java process running, and its object, shut down again, shuts down a service made later (`C110_stale`)
* **C110** the comment that the kind of service cannot change in the life of a Python process does not hold after a shut down (`C110_change`)
* **C110** the pattern for the maximum memory accepts a newline at the end (`C110_memory`)
* **C111** A field `YamlExpressionType | Model` holding a model contributes none of the expressions of the model (no class of the repository has such a field); expressions in lists of lists are not found; in a field that allows expressions and elsewhere other text, the other text is read as an expression.
* **C112** `list[T | DefinitionReference] | None` and `list[Annotated[T | DefinitionReference, ...]]` are not resolved; the names inside a definition are not resolved when it is put in.
* **C113** `_to_operating_input` promises to fall back to the inlet pressure when the pump is off and the required discharge pressure is not a valid pressure; a negative one is refused before (ExpressionTimeSeriesPressure without mask), only zero and NaN fall back (`C113_off`).
* **C113** NaN passes `_require_positive` and the checks of LiquidStream, since every comparison with NaN is false; a suction pressure of NaN is given to the pump (`C113_nan`).
* **C113** `_get_chart_data` converts InvalidResourceException only; a chart of several speeds with a header in lower case raises a bare KeyError (`C113_header`).
* **C114** In a field over time the keys `2020-01-01` and `2020-01-01 00:00:00` are two keys of the document but one instant: the first value is dropped without a message (`C114_same_instant`).
* **C114** A dict with a key that is a number (a year, say) in a field that may change over time ends in an AttributeError of `key.split`, which is not among the exceptions that `is_temporal_model` catches (`C114_number_key`).
* **C115** Two columns of a time series file whose headers differ in case only are both listed as references, and both give the values of the first (`C115_case`).
* **C116** `is_ignored_zip_content` asks whether the path of an entry is a folder of the server's working directory; if so the file is dropped without being reported (`C116_server_folder`).
* **C116** Endings in capital letters are accepted inside archives but not for single files (`C116_capitals`).
* **C116** A yaml file that is not UTF-8 makes `get_main_file` raise UnicodeDecodeError although another file is the main file (`C116_garbled`).
* **C117** The maximum rate of a sampled compressor with a turbine always ends with an `AttributeError` (`compressor_model._fluid_model`, core/base.py:106), so such a compressor cannot be used with a crossover in a consumer system (`C117_sampled_turbine`).
* **C117** `ConsumerSystemComponent` passes no interstage pressure; every evaluation of a train with interstage control is refused (`C117_interstage`; the YAML references admit no such train in a system, so this concerns callers of the class).
* **C117** The maximum rate of a compressor with turbine is limited by the power of the compressor, not by the load after the adjustment of the energy usage; at that rate the load may be above what the turbine delivers (`C117_adjusted`).
* **C118** A RATE, SUCTION_PRESSURE, DISCHARGE_PRESSURE or POWER column of a sampled compressor with one cell that is no number is left out without an error, and the compressor is built as a function of the other columns (`_get_float_column_or_none` catches every `InvalidResourceException`, facility_input.py:13-17; `C118_lost_column`).
* **C118** Columns are looked up without regard to case, but whether the compressor uses fuel is decided by `"FUEL" in headers`: a file with headers fuel and power gives a compressor that takes power, a file with fuel alone is refused for want of POWER (`C118_fuel_case`).
* **C119** The reference service counts the positions of valid entries only, so after an invalid entry the paths of the later ones are wrong (`C119_shifted`; not seen in a run, which validates first).
* **C119** `definitions` does not check the type of its two sections: `PROCESS_UNITS:` or `FLUIDS:` left empty ends with an `AttributeError`, whereas the other properties take an empty section as empty (`C119_empty`; a run refuses such a document before).
* **C120** `is_temporal_model` recognises ISO texts ("2020-01-01T00:00:00") as dates, but `convert_expression` reads every text as a period in another format: such a dict always ends with a `ValueError` or `IndexError` (`C120_iso`).
* **C120** `convert_expression` does not sort dates: out of order they give a period that ends before it begins, and an older expression in effect after a younger date (`C120_unsorted`). Dates mixed with ISO texts are left without periods (`C120_mixed`).

## Properties

| id | title | status | theorems |
|---|---|---|---|
| C01 | Periods built from dates partition the timeline | proved | 2 |
| C02 | Period overlap and intersection are set intersection | proved | 5 |
| C03 | A temporal model gives the last definition at or before the date | proved | 6 |
| C04 | Restricting a temporal model to a target period never changes what is in force | proved | 5 |
| C05 | Selecting sub-periods returns exactly the periods inside | proved | 4 |
| C06 | Reporting periods cover the modelled time without gaps | partial | 4 |
| C07 | Stream-day and calendar-day rates convert back and forth without loss | proved | 4 |
| C08 | Cumulative volumes and period volumes are inverse views | proved | 4 |
| C09 | Resampling volumes conserves the total volume | proved | 4 |
| C10 | Rates, durations and volumes agree | partial | 5 |
| C11 | A resampled validity flag is true only if every covered period is valid | proved | 3 |
| C12 | Adding rate series adds the calendar-day rates | partial | 4 |
| C13 | Slicing a time series to sub-periods and extending back restores it | proved | 15 |
| C14 | Unit conversions are reversible and consistent | proved | 8 |
| C15 | The global time vector is sorted, duplicate free and inside the requested range | proved | 5 |
| C16 | Input time series are placed on the global time vector by their rule | proved | 4 |
| C17 | Variable definitions resolve independently of their order | proved | 4 |
| C18 | Expressions are parsed with the documented precedence and associativity | proved | 7 |
| C19 | Evaluating an expression is period-wise | proved | 9 |
| C20 | A time-varying expression is evaluated with the definition in force in each period | partial | 4 |
| C21 | Regularity is always a fraction | partial | 5 |
| C22 | Conditions and masks switch consumption off exactly where they are false | proved | 7 |
| C23 | Power loss factor scales consumption and never divides by zero silently | proved | 4 |
| C24 | A consumer system uses the first operational setting that works | proved | 3 |
| C25 | Cross-over moves rate between consumers but never creates or loses any | proved | 8 |
| C26 | Priority optimisation picks the first feasible priority | proved | 4 |
| C27 | Bisection searches return a point that was accepted and bracket the boundary | proved | 9 |
| C28 | Adaptive pressure damping stays in its bounds | proved | 6 |
| C29 | Turbine fuel use is non-negative, zero at no load, and overload is flagged | partial | 9 |
| C30 | A generator set never reports an overload as valid | proved | 9 |
| C31 | Fuel emissions are fuel rate times factor, for the fuel in force | proved | 4 |
| C32 | Venting emissions account for every listed emission | partial | 4 |
| C33 | Component graph traversal is complete | proved | 14 |
| C34 | Versions are totally ordered and survive printing | proved | 8 |
| C35 | Duplicate detection finds exactly the repeated names | proved | 5 |
| C36 | The fluid cache is a bounded most-recently-used map | proved | 12 |
| C37 | Distributing a common stream conserves the total rate | partial | 10 |
| C38 | Solver configurations combine predictably | proved | 7 |
| C39 | Tolerance comparisons are mutually exclusive and exhaustive | proved | 6 |
| C40 | Chokes never raise pressure and hit the target when feasible | proved | 11 |
| C41 | Recirculation leaves the net rate unchanged | proved | 7 |
| C42 | Mixing streams conserves mass, energy and moles | proved | 4 |
| C43 | Partitioning a process train keeps every unit in order | proved | 7 |
| C44 | Pipeline connections chain the units | proved | 4 |
| C45 | Shaft speed rules | proved | 8 |
| C46 | The delta profile is the difference of two results on common periods | proved | 6 |
| C47 | Exported totals are sums over the installation's consumers | proved | 13 |
| C48 | Resource columns are found by name | proved | 13 |
| C49 | The secant fallback never leaves the interval and is exact for straight lines | proved | 4 |
| C50 | Emission intensity is emitted mass over exported volume | proved | 5 |
| C51 | A consumer reports in every period what the model in force then computed | proved | 8 |
| C52 | A tabulated consumer's usage is interpolated from its table and invalid outside it | proved | 11 |
| C53 | Installation and asset totals are the sums over their components | proved | 9 |
| C54 | The recirculation rate finder returns a rate that works, and its failures are genuine | proved | 11 |
| C55 | The shaft speed finder returns a speed that works, and its failures say what happened | proved | 9 |
| C56 | A chart curve is the polyline through its points, and a control margin removes its left part | proved | 15 |
| C57 | A pump delivers the requested mass at the required pressure or says why not | proved | 14 |
| C58 | The envelope of a chart is the one a user draws | proved | 8 |
| C59 | The pump of a consumer function agrees with the process pump | proved | 10 |
| C60 | Scrubbing keeps exactly the gas; cooling changes only the temperature; direct mixing is undone by splitting | proved | 7 |
| C61 | A compressor chart's capacity verdict is that of the corrected point | proved | 6 |
| C62 | A compressor chart has one head and efficiency per speed and rate, and accepts exactly the operable points | proved | 11 |
| C63 | The generic compressor chart of a design point is the unified chart stretched to it | proved | 4 |
| C64 | The generic chart made from input points covers all of them | proved | 4 |
| C65 | An expression is split into its longest pieces in order, line by line, and survives being written out | proved | 10 |
| C66 | A compressor stage conserves mass and books recirculation | proved | 11 |
| C67 | Streams of a compressor train go to their stages, and cutting a train changes nothing | proved | 8 |
| C68 | The status of a train result tells the truth about pressures, capacity and power | proved | 8 |
| C69 | The shaft speed found is one that all stages can have, and is as low as needed; time steps do not influence each other | proved | 7 |
| C70 | With pressure control, a valid result is on target whatever the control | proved | 13 |
| C71 | With a pressure between two stages, one shaft speed serves both parts, and a valid result meets both targets | proved | 6 |
| C72 | The maximum rate announced for a compressor train can be taken, and hardly more | proved | 8 |
| C73 | Solving a section carries nothing over from earlier evaluations | proved | 5 |
| C74 | A section solution that claims success delivers the target pressure | proved | 7 |
| C75 | Solvers for several sections put every section on its target | proved | 7 |
| C76 | Sections are put together as the solvers need them | proved | 9 |
| C77 | Individual anti-surge keeps every compressor out of surge | proved | 5 |
| C78 | The excess rate reported for a train is what the train cannot handle | proved | 8 |
| C79 | Distributing a stream to trains keeps the total and respects capacities and priorities | proved | 6 |
| C80 | A compressor made from sampled data reports what the samples say | proved | 15 |
| C81 | A sampled compressor with two varying variables has a value exactly where the samples can do the job | proved | 10 |
| C82 | Campbell's head and outlet pressure undo each other, and equal stage ratios are the cheapest | proved | 10 |
| C83 | The outlet of a compressor has taken up the work, at a pressure that agrees with Campbell | proved | 8 |
| C84 | A simplified train has equal ratios, balanced energy, honest areas, and a maximum rate set by its weakest stage | proved | 12 |
| C85 | Numbers shown with a precision are close, ordered, tidy and stable | proved | 12 |
| C86 | Uploaded files are sorted by ending, named uniquely and linked relative to the one main file | proved | 7 |
| C87 | Dates of a time series are read as written, all in one style, or refused | proved | 4 |
| C88 | Dates in a model split the run exactly | proved | 6 |
| C89 | A run gives every component exactly its own result | proved | 3 |
| C90 | The operational settings of a consumer system are used as written | proved | 12 |
| C91 | References in the file stand for what the file declares under that name | proved | 15 |
| C92 | Streams of a compressor train go to the stages that mention them | proved | 9 |
| C93 | The energy usage model of a consumer is evaluated as written | proved | 14 |
| C94 | The prognosis reports say how much of what, and each amount once | proved | 11 |
| C95 | A simplified train made from operational data fits this data | proved | 9 |
| C96 | A compressor's report shows what was computed and what was requested | proved | 9 |
| C97 | Reading a file with includes is reading the file with the includes written out | proved | 13 |
| C98 | The files a model needs are read and renamed as they are named in it | proved | 13 |
| C99 | An error is reported where it is | proved | 14 |
| C100 | A component burns the fuel that the file gives it | proved | 9 |
| C101 | The limits of a three-dimensional sampled compressor are the limits of the sampled space | proved | 9 |
| C102 | A three-dimensional sampled compressor serves what some sampled point serves | proved | 9 |
| C103 | Chart files: every row of the file, no matter in which order, and the chart in the results | proved | 11 |
| C104 | Pressures and other plain series at a coarser frequency | proved | 9 |
| C105 | The table of results: every series once, under its heading, in the row of its period | proved | 12 |
| C106 | The caches of the thermodynamic service change answers by no more than their rounding | proved | 22 |
| C107 | A run writes exactly the files asked for, and leaves all others alone | proved | 14 |
| C108 | The flow diagram shows every component of the file once, connected to what feeds it | proved | 3 |
| C109 | A process simulation is made of what its file says, each unit once for each place it is used | proved | 12 |
| C110 | One Java service at a time: no process is left behind, and no answer comes from one that is gone | proved | 9 |
| C111 | The references found in a model are those of its expressions | proved | 5 |
| C112 | Resolving the definitions of a model replaces the names of definitions and nothing else | proved | 6 |
| C113 | Pump process simulations from the YAML file to the results | proved | 7 |
| C114 | Which installations the YAML schema lets through, and how a field over time is read | proved | 8 |
| C115 | From the time series of a model to its variables | proved | 6 |
| C116 | An uploaded archive is taken apart completely: every file is valid, invalid or hidden, and one is the main file | proved | 10 |
| C117 | A component of a consumer system answers each enquiry as if it were the first, though its model remembers inputs | proved | 10 |
| C118 | A sampled compressor or table is built from the columns its file names, whatever the order of the columns | proved | 6 |
| C119 | A section of a document that has invalid entries still gives all its valid ones, under their own names | proved | 7 |
| C120 | Expressions given at dates are in effect from their date to the next one | proved | 9 |

## What is missing in the partial ones

* **C06** Missing part: inner boundaries equal the frequency dates only if the time of day of the start is not after that of the end; C06_frequency_date_missed proves the code misses a date otherwise. The gap-free partition itself is unconditional.
* **C10** Missing part: stream-day resampling preserves volume only for non-negative rates; C10_stream_cancellation proves the code loses volume when stream volumes cancel.
* **C12** Missing part: for calendar-day sums with differing regularities the result is exact only where the summed rates are not zero; C12_zero_sum_is_nan proves the code yields NaN (0/0 regularity) otherwise. Same-regularity stream-day sums and rejected mismatches are covered.
* **C20** Temporal expressions: complete. Missing part (user variables): dates must be listed in increasing order; C20_variable_unsorted proves that otherwise the definitions are exchanged.
* **C21** Accepted regularities are fractions for every input (plain, dated, absent); dated inputs use the definition in force; absent input is 1. Missing part: a plain number 0 is not used as specified but becomes 1, proved in C21_zero_becomes_one.
* **C29** Zero load, non-negative fuel, energy balance, exact meaning of the flag for all tables and calibrations. Missing part: overload detection; C29_overload_missed and C29_false_alarm prove that the flag compares the load before calibration, so it is wrong whenever calibration changes the load.
* **C32** Exact for emissions with distinct names, direct and oil emitters. Missing part: repeated names; C32_repeated_name and C32_last_wins prove that all but the last emission of a name are dropped (names are not validated to be unique).
* **C37** Conservation, capacity and errors are proved for every distribution. "Own share" holds when the declared order equals the order after sorting; C37_shares_exchanged proves that otherwise the code pairs rates with the wrong consumers.

## Plan per property

| id | modelled | proof idea |
|----|----------|-----------|
| C01 | `Periods.create_periods`, `Period.__contains__` | induction over the date list |
| C02 | `intersects`, `intersection`, `__contains__` | linear order reasoning |
| C03 | `TemporalModel.__init__`, `get_model` | induction over keys, spec = last key ≤ date |
| C04 | `default_temporal_model`, `define_time_model_for_period` | equality of "in force at t" functions |
| C05 | `get_period_indices`, `get_periods` | induction over a consecutive list, index lemmas |
| C06 | `resample_periods`, date creation (calendar date range abstract) | reuse C01 |
| C07 | `Rates.to_stream_day/to_calendar_day` | pointwise field algebra |
| C08 | `cumulative`, `to_volumes` | induction, scan/diff inverse |
| C09 | `TimeSeriesVolumes.resample`, linear interpolation | telescoping; interpolation of cumulative = integral |
| C10 | `to_volumes`, `to_rate`, rate `resample` | pointwise algebra + C09 |
| C11 | `TimeSeriesBoolean.resample` | index characterisation |
| C12 | `TimeSeriesRate.__add__` | pointwise algebra, negative witness for zero regularity |
| C13 | `extend`, `for_period`, `__getitem__` | take/drop |
| C14 | conversion registry | finite table lifted over all values |
| C15 | `get_global_time_vector` | sorted/dedup lemmas |
| C16 | `fit_to_time_vector`, `_interpolate` | induction over source dates |
| C17 | `_evaluate_variables` | progress measure, acyclicity by rank function |
| C18 | `get_postfix`, `get_tree`, `evaluate` | simulation of the shunting-yard by structural induction |
| C19 | `Expression.evaluate`, `get_subset` | structural induction, commutes with slicing |
| C20 | `_evaluate_temporal` | fold over definitions, pointwise |
| C21 | `Regularity` | case analysis, negative witness for falsy input |
| C22 | masks | pointwise |
| C23 | power loss `apply` | pointwise algebra |
| C24 | operational setting selection | fold invariant |
| C25 | cross-over | fold invariant over consumers |
| C26 | `PriorityOptimizer` | fold over priorities |
| C27 | `search_strategies` | loop invariant on bracket |
| C28 | damping | invariant over update histories |
| C29 | turbine | piecewise linear interpolation lemmas |
| C30 | generator set | same |
| C31 | `evaluate_emissions` | fold, pointwise |
| C32 | venting | fold; negative witness duplicates |
| C33 | graph | invariant over op histories |
| C34 | version | lexicographic order; decimal print/parse |
| C35 | duplicates | fold invariant |
| C36 | LRU | refinement to "most recent" list spec over op histories |
| C37 | stream distribution | fold conserves sum; witness for misassignment |
| C38 | configuration merge | assoc-list laws |
| C39 | float constraint | case analysis |
| C40 | chokes | algebra; bisection invariant |
| C41 | recirculation | algebra, well-nested loops |
| C42 | mixer | sums over lists |
| C43 | partitioner | fold invariant |
| C44 | connections | induction |
| C45 | shaft | op history invariant |
| C46 | delta profile | pointwise; self-difference zero |
| C47 | exporter | sum over partition |
| C48 | resource | list lookup |
| C49 | `numeric_methods` root finding | loop invariant |
| C50 | `numeric_methods` maximisation | loop invariant |
| C51 | consumer results over several models | induction over parts |
| C52 | tabulated and direct consumer functions | interpolation lemmas, mask |
| C53 | installation and asset totals | fold of series addition = sum, over any regularities |
| C54 | recirculation rate finder | bracket invariant with probes that raise |
| C55 | shaft speed finder | same |
| C56 | chart curves, control margin | sorting, piecewise linear interpolation |
| C57 | pump, its streams and inputs | algebra over the chart envelope |
| C58 | chart envelope | polyline lemmas |
| C59 | legacy pump | case analysis over the chart envelope |
| C60 | remaining process units | unfolding with the thermodynamics as a parameter |
| C61 | capacity and choking | geometry of rising and falling polylines |
| C62 | single point evaluation | uniqueness of the interpolation between speeds |
| C63 | generic chart from design point | scaling of polylines |
| C64 | generic chart from input | search invariant, termination measure |
| C65 | reading and writing expressions | regular languages, longest match, locality at blanks |
| C66 | compressor stage | balances through the chain of units, state of the modifier |
| C67 | streams and cutting of a train | ports indexed by stage, runs of appended lists |
| C68 | status and failure of a result | comparison by tolerance, first match in a list |
| C69 | shaft speed | search specification, fold over time steps |
| C70 | pressure control | case analysis per control, chain of ratios |
| C71 | two pressures | composition of the parts |
| C72 | maximum rate | bracketing, monotone machines, invariance under history |
| C73 | section solver and its history | relational reasoning: settings agreeing except on the handlers about to be set |
| C74 | success and unreachable reports of the section solver | soundness predicate per pressure control; induction over stages; last setting of merged configurations |
| C75 | solvers for several sections | induction over the sections with the configurations still to come; C73 and C74 per section |
| C76 | assembly of sections | invariant of the loop over the units; induction over the sections with the next free id |
| C77 | individual anti-surge | induction over the loops: compressors in front stay safe, the range of the next one computed from loops at 0; streams through rate-independent units scale with the rate |
| C78 | capacity of a train | induction over the bisection with a solver that leaves settings behind; independence of settings (C73) makes the answers a function of the rate |
| C79 | distribution to trains | refinement: the loop with trains and streams computes what the model of C37 computes for rates; C37 and C78 carry over |
| C80 | sampled compressor, one variable | spec `Reads` (three cases) is functional; lookup satisfies it; validation characterised as `Sound` |
| C81 | sampled compressor, two variables | contract `IsHull` for the library; at every level a tight facet; the curve of a half hull follows the edge of the area; staircase lemma for convex sets |
| C82 | Campbell's formulas | real analysis: rpow injective and monotone; weighted AM-GM for the equal split |
| C83 | compressor outlet | loop invariant of the damped iteration (C28); contract on the flash only where stated |
| C84 | simplified train | induction over the stages; capacity from C61; two-round analysis of the iterations for a state-independent head |
| C85 | numbers shown | closed form of the shown value; floor and rounding lemmas on each decade; induction over results |
| C86 | uploaded files | following a relative path part by part; injectivity of joining parts |
| C87 | dates of a time series | denotational language of the patterns; unique decomposition into runs of digits |
| C88 | dates of a model cut the run | mutual induction over the YAML tree; clipped periods (C04) have ends among the dates of the run (C15), slices are filters (C05), sorted lists with equal members are equal |
| C89 | every component gets its own result | ids are laid out as consecutive numbers; all dicts and the graph are flattenings of the layout, lookups follow from disjoint id ranges, the loop over nodes is composed segment by segment |
| C90 | operational settings of consumer systems: pasted texts, pressures, densities, cross-overs | lexing splits at parentheses; the grammar of C18 gives the tree of the product; values per period from C19/C22; iff over all lists by mapM and forM lemmas |
| C91 | names of all sections, validation of references, creation of compressor models | a dict filled in order gives the last assignment, unique names make it membership; an inductive relation of what a model is made of equals the recursive creation; validation gives its premises |
| C92 | streams, stages and ports of trains with several streams | an invariant of the dict shows that no stage is dropped; counts of ports equal counts of streams, so the two are permutations, equal exactly when the streams are sorted; induction over stages with the queue of ingoing streams; counting shows that mixed-up kinds are refused |
| C93 | energy usage models of single consumers | the joined text of the conditions is lexed and parsed back into the product of the trees; values follow from C19 and C90; acceptance is an equivalence with a specification in terms of values per period |
| C94 | long and short term prognosis reports | the columns as data; each column is a query of C47; linearity of spreading turns sums of columns into counts per source, which depend on finitely many words |
| C95 | preparing simplified trains from operational data | the number of stages is the least n with n log R at least the log of the largest ratio; scalar and vector head iteration agree for one stream or a uniform head, so C64_covers puts each point of the run inside its chart |
| C96 | reports of compressors | filling by index is a transposition, so each entry is that of one stage in one time step; element-wise folds over columns; the numbers of settings are shifted by one twice |
| C97 | YAML files with includes | mutual induction over nodes inside an induction over the recursion limit: constructing with includes is constructing the substituted document; the streams read form a log that only grows |
| C98 | files of a model, renaming them | dicts as lenses (get/put laws); renaming replaces the first occurrence in the list of names of a section; a renaming that identifies old and new name cannot tell the result from the original |
| C99 | the place of an error in the file: context, location, names | induction on the path with the place found so far; unique decoding of the text by splitting at separators |
| C100 | the fuel and the kind of consumers and generator sets | restriction to the run is a sorted list with the same values at each moment; its period starts at the first moment and ends with the run |
| C101 | limits of the three-dimensional sampled space | a point with the least value along an axis is on a facet facing that way (ray argument); the facets of one plane cover it by the promise; the middle of the box decides the side strictly if it is inside |
| C102 | three-dimensional sampled compressors outside the samples | the area of each half is the shadow of the space, so the two-dimensional projection (C81) applies; if all three ways fail, the point is between three points of the space |
| C103 | chart files and charts in the results | both ways of reading build one curve per speed from the filtered rows; sorted lists with the same members are equal |
| C104 | plain series at a coarser frequency | forward fill shows the last number at or before a position; start dates of consecutive periods are distinct; dates of C06 |
| C105 | the table of results | a step of the loop adds a list of series to a frame (closed under folding); induction over the depth of objects; a heading determines attribute and unit because units have no bracket |
| C106 | caches of the thermodynamic service | a Hoare logic for the state-and-error monad; the invariant says of each entry for which requests it may have been computed; with requests apart it says the entry is the only possible answer |
| C107 | files written by a run | a run is a list of steps on a disk; each step writes a path under the folder or spares all paths; names of different kinds differ by their ends |
| C108 | flow diagram | the successors of each node of the graph are computed from the layout of ids of C89; the traversal then yields a picture defined on labelled files; its soundness from the ids being different |
| C109 | process simulations | every mapping step as an iff with its specification, by induction over items, changes and targets; ids form an interval, hence differ |
| C110 | Java service | invariant on caches and gateways for all executions; refinement of a machine without caches and processes for executions without failing shut downs |
| C111 | finding the references of expressions | places in values and annotations; the walk characterised by places; induction on size |
| C112 | resolving definitions | paths with the annotation of the last field; the resolver follows every path |
| C113 | pump process simulations from YAML to results | values of expressions on the calculated periods (C19), regularity one (C21), induction over the strict zip, acceptance implies evaluation (C57) |
| C114 | rules of the YAML schema, fields over time | lists split at semicolons; the kinds of keys by cases; folds of dictSet keep the last value; equivalence with a declarative set of rules |
| C115 | collections of time series to variables | folds of dictSet and filterMap; splitting references; the fit of C16 carried through the mapping |
| C116 | Uploaded archives | loop invariants: valid and invalid lists are the filtered entries in order; endings characterised by splitting at the last dot; main file by filtering |
| C117 | facility models that remember their inputs | relation of states with the same fluid models; induction over the questions of the root finder, the time steps and the enquiries |
| C118 | sampled compressors and tables from files | columns characterised by their first header up to case and their cells; data determined by that |
| C119 | sections read without failing | loops with accumulators give the valid entries; distinct names make assignments appends |
| C120 | expressions over time | fresh keys make the dict the list of pairs; induction over consecutive dates |
