{
 "claims": [
  {
   "property": "C01",
   "status": "proved",
   "theorems": [
    "Verif.Interp.C01_eval_at_node"
   ],
   "note": "operator() at node i equals vector_at_index(i), for every strictly increasing grid"
  },
  {
   "property": "C02",
   "status": "proved",
   "theorems": [
    "Verif.Interp.C02_eval_affine"
   ],
   "note": "affine formula and bounds on every closed cell"
  },
  {
   "property": "C03",
   "status": "proved",
   "theorems": [
    "Verif.Interp.C03_eval_range"
   ],
   "note": "throws iff more than EPSILON outside; no UB on nonempty grids"
  },
  {
   "property": "C04",
   "status": "proved",
   "theorems": [
    "Verif.Interp.C04_array_of_vectors",
    "Verif.Interp.C04_bulk",
    "Verif.Interp.C04_set_zero",
    "Verif.Interp.writeTimestep_spec",
    "Verif.Interp.writeTimestep_rejects",
    "Verif.Interp.C04_mapped",
    "Verif.Interp.C04_reset",
    "Verif.Interp.C04_constructed",
    "Verif.Interp.C04_equidistant"
   ],
   "note": "also for mapped vectors, which are rejected unless the array has the right size"
  },
  {
   "property": "C05",
   "status": "proved",
   "theorems": [
    "Verif.Interp.C05_start_delta_end",
    "Verif.Interp.C05_start_number_end",
    "Verif.Interp.C05_start_delta_number"
   ],
   "note": "exact arithmetic; one entry in start/number/end divides by zero"
  },
  {
   "property": "C06",
   "status": "partial",
   "theorems": [
    "Verif.Interp.C06_std_vector_false",
    "Verif.Interp.C06_std_vector_never_throws",
    "Verif.Interp.C06_eigen_partial"
   ],
   "note": "false for the std::vector constructor (checks moved-from vector); proved for the Eigen constructor with asserts enabled"
  },
  {
   "property": "C07",
   "status": "proved",
   "theorems": [
    "Verif.Interp.C07_eq_iff",
    "Verif.Interp.C07_assign",
    "Verif.Jacobian.C07_jacobian_assign"
   ],
   "note": ""
  },
  {
   "property": "C08",
   "status": "proved",
   "theorems": [
    "Verif.IndexLambda.C08_agrees_with_interpolation",
    "Verif.IndexLambda.C08_end_iterator",
    "Verif.IndexLambda.C08_vector"
   ],
   "note": "also shows undefined behaviour from back+EPSILON on"
  },
  {
   "property": "C09",
   "status": "proved",
   "theorems": [
    "Verif.Jacobian.C09_offsets",
    "Verif.Jacobian.C09_indices"
   ],
   "note": ""
  },
  {
   "property": "C10",
   "status": "proved",
   "theorems": [
    "Verif.Jacobian.C10_values_match_indices"
   ],
   "note": ""
  },
  {
   "property": "C11",
   "status": "proved",
   "theorems": [
    "Verif.Jacobian.C11_stored_iff_causal",
    "Verif.Jacobian.C11_no_influence"
   ],
   "note": ""
  },
  {
   "property": "C12",
   "status": "proved",
   "theorems": [
    "Verif.Weights.C12_trapezoid",
    "Verif.Weights.C12_affine_exact",
    "Verif.Weights.C12_nonneg",
    "Verif.Weights.C12_objective"
   ],
   "note": "The objective loop starts at time index 1, so the term of the initial time is left out of the integral (C12_objective)."
  },
  {
   "property": "C13",
   "status": "proved",
   "theorems": [
    "Verif.OptState.C13_history_independent",
    "Verif.OptState.C13_same_as_fresh"
   ],
   "note": "The simulation is assumed to be deterministic."
  },
  {
   "property": "C14",
   "status": "proved",
   "theorems": [
    "Verif.OptState.C14_failure",
    "Verif.OptState.C14_only_own_failure"
   ],
   "note": ""
  },
  {
   "property": "C15",
   "status": "proved",
   "theorems": [
    "Verif.Adjoint.C15_gradient_of_linearisation",
    "Verif.Adjoint.C15_sweep_succeeds",
    "Verif.Adjoint.C15_gradient_exact"
   ],
   "note": "Whenever the sweep returns, its gradient is the Frechet derivative of the discretised objective; LU solves are exact."
  },
  {
   "property": "C16",
   "status": "partial",
   "theorems": [
    "Verif.Adjoint.C16_jacobian_of_linearisation",
    "Verif.Adjoint.C16_index_data_in_bounds",
    "Verif.Adjoint.C16_jacobian_exact_partial",
    "Verif.Adjoint.C16_optimizer_exact_partial",
    "Verif.Adjoint.C16_first_constraint_time"
   ],
   "note": "Exactness holds whenever the sweep returns. That it returns needs the out-of-bounds read of C18 not to happen or to be harmless, hence partial; C16_first_constraint_time shows that this is needed, C107_false has a problem from files."
  },
  {
   "property": "C17",
   "status": "proved",
   "theorems": [
    "Verif.OptTimes.C17_check_iff_sublist",
    "Verif.OptTimes.C17_check_iff_subset"
   ],
   "note": ""
  },
  {
   "property": "C18",
   "status": "partial",
   "theorems": [
    "Verif.OptTimes.C18_in_bounds_iff",
    "Verif.OptTimes.C18_false",
    "Verif.OptTimes.C18_in_bounds_partial",
    "Verif.OptTimes.C18_reachable"
   ],
   "note": "False in general; exact characterisation proved."
  },
  {
   "property": "C19",
   "status": "partial",
   "theorems": [
    "Verif.OptState.C19_false",
    "Verif.OptState.C19_final_values_partial"
   ],
   "note": "False in general: finalize_solution evaluates without announcing the final vector."
  },
  {
   "property": "C20",
   "status": "partial",
   "theorems": [
    "Verif.OptTimes.C20_selection",
    "Verif.OptTimes.C20_false",
    "Verif.OptTimes.C20_final_time_partial"
   ],
   "note": "Inclusion of the final time is false; exact condition proved."
  },
  {
   "property": "C21",
   "status": "proved",
   "theorems": [
    "Verif.OptState.C21_check_supplies_simulation",
    "Verif.OptState.C21_refresh",
    "Verif.OptState.C21_empty_key_false"
   ],
   "note": "For non-empty keys; a fresh cache answers the empty key with failure."
  },
  {
   "property": "C22",
   "status": "partial",
   "theorems": [
    "Verif.Newton.C22_false",
    "Verif.Newton.C22_false_negative_limit",
    "Verif.Newton.C22_success_partial"
   ],
   "note": "False as stated: a NaN residual, or a negative iteration limit, is reported as success. Proved for residuals that are not NaN and positive limits."
  },
  {
   "property": "C23",
   "status": "proved",
   "theorems": [
    "Verif.Newton.C23_iterations",
    "Verif.Newton.C23_solved_start",
    "Verif.Newton.C23_residual_decrease_false",
    "Verif.Newton.C23_line_search_ends",
    "Verif.Newton.C23_gives_up"
   ],
   "note": "The stronger claim that each step decreases the residual is shown false."
  },
  {
   "property": "C24",
   "status": "proved",
   "theorems": [
    "Verif.Evolve.C24_solved",
    "Verif.Evolve.C24_throws",
    "Verif.Evolve.C24_residuals_partial"
   ],
   "note": "For every solver; C24_residuals_partial instantiates the modelled Newton solver and needs residuals that are not NaN (C22)."
  },
  {
   "property": "C25",
   "status": "proved",
   "theorems": [
    "Verif.Evolve.C25_attempts"
   ],
   "note": ""
  },
  {
   "property": "C26",
   "status": "partial",
   "theorems": [
    "Verif.Times.C26_grid_partial",
    "Verif.Times.C26_false",
    "Verif.Times.C26_false_consequence"
   ],
   "note": "False for a negative wished step longer than the interval (accepted, one-point grid, out-of-bounds read). Proved for all positive wished steps and for all intervals with end before start."
  },
  {
   "property": "C27",
   "status": "proved",
   "theorems": [
    "Verif.Handler.C27_entries",
    "Verif.Handler.C27_handlers_agree",
    "Verif.Handler.C27_outside",
    "Verif.Handler.C27_pattern_kept",
    "Verif.Handler.C27_reuse"
   ],
   "note": ""
  },
  {
   "property": "C28",
   "status": "proved",
   "theorems": [
    "Verif.SmoothAbs.C28_derivative",
    "Verif.SmoothAbs.C28_derivative_continuous",
    "Verif.SmoothAbs.C28_values",
    "Verif.SmoothAbs.dabs_spec"
   ],
   "note": ""
  },
  {
   "property": "C29",
   "status": "proved",
   "theorems": [
    "Verif.Box.C29_derivatives",
    "Verif.Box.eulerLaw_exactAt"
   ],
   "note": "For every balance law that supplies right derivatives of flux and source; eulerLaw_exactAt shows that the Euler equations do at every state with positive density and Reynolds number below 4000 (above, the turbulent friction derivative is wrong, see C33)."
  },
  {
   "property": "C30",
   "status": "proved",
   "theorems": [
    "Verif.Box.C30_balance",
    "Verif.Box.C30_conservation",
    "Verif.Box.C30_mass"
   ],
   "note": "Any balance law, any number of cells; C30_mass is the consequence for the mass of gas in a pipe."
  },
  {
   "property": "C31",
   "status": "proved",
   "theorems": [
    "Verif.Euler.C31_density_round_trip",
    "Verif.Euler.C31_pressure_round_trip",
    "Verif.Euler.C31_derivative",
    "Verif.Euler.C31_monotone",
    "Verif.Euler.C31_beyond_range",
    "Verif.Euler.C31_units"
   ],
   "note": "Exact real arithmetic."
  },
  {
   "property": "C32",
   "status": "partial",
   "theorems": [
    "Verif.Euler.C32_false",
    "Verif.Euler.C32_turbulent_kink",
    "Verif.Euler.C32_turbulent_continuous",
    "Verif.Euler.C32_laminar_seam"
   ],
   "note": "The laminar seam is smooth; the turbulent seam is continuous but has a kink for every pipe (consequence of C33)."
  },
  {
   "property": "C33",
   "status": "partial",
   "theorems": [
    "Verif.Euler.C33_false",
    "Verif.Euler.C33_false_everywhere",
    "Verif.Euler.C33_actual"
   ],
   "note": "False for every pipe and Reynolds number: a multiplication in the place of a division. C33_actual says what is computed."
  },
  {
   "property": "C34",
   "status": "partial",
   "theorems": [
    "Verif.Euler.C34_flux",
    "Verif.Euler.C34_source_defined",
    "Verif.Euler.C34_source_partial",
    "Verif.Euler.C34_source_turbulent",
    "Verif.Euler.C34_source_false_turbulent",
    "Verif.Euler.C34_false"
   ],
   "note": "Flux: proved. Source: proved below Reynolds number 4000 (with both laminar and transition regions and their seam); wrong at every turbulent state above (C34_source_turbulent, consequence of C33)."
  },
  {
   "property": "C35",
   "status": "proved",
   "theorems": [
    "Verif.Gas.C35_flow_node",
    "Verif.Gas.C35_pressure_node"
   ],
   "note": "Any number and mixture of attached ends; each end has its own row (shown for whole networks in C39)."
  },
  {
   "property": "C36",
   "status": "proved",
   "theorems": [
    "Verif.Gas.C36_flow_node",
    "Verif.Gas.C36_pressure_node"
   ],
   "note": "Exact: for every differentiable path of states the chain rule sum of the entries is the derivative of each row; also for pressure nodes."
  },
  {
   "property": "C37",
   "status": "proved",
   "theorems": [
    "Verif.Gas.C37_meaning",
    "Verif.Gas.C37_derivative"
   ],
   "note": ""
  },
  {
   "property": "C38",
   "status": "proved",
   "theorems": [
    "Verif.Gas.C38_loop",
    "Verif.Gas.C38_rows",
    "Verif.Gas.C38_widths",
    "Verif.Gas.C38_negative_width",
    "Verif.Gas.C38_derivative"
   ],
   "note": "Positive lengths and widths; C38_negative_width shows what the unvalidated negative width does. C38_derivative: the Jacobian entries of a pipe of any number of points are exact for Reynolds numbers below 4000."
  },
  {
   "property": "C39",
   "status": "proved",
   "theorems": [
    "Verif.Network.C39_each_row_once"
   ],
   "note": "For admissible networks (the consistency of the attached edge lists is C48); which kinds of nodes may be joined by which kinds of edges is not checked by the code."
  },
  {
   "property": "C40",
   "status": "proved",
   "theorems": [
    "Verif.Network.C40_contiguous",
    "Verif.Network.C40_partition"
   ],
   "note": "The same loop assigns state, control and constraint indices."
  },
  {
   "property": "C41",
   "status": "proved",
   "theorems": [
    "Verif.Power.C41_power",
    "Verif.Power.C41_derivatives",
    "Verif.Power.C41_node_meaning",
    "Verif.Power.C41_node"
   ],
   "note": ""
  },
  {
   "property": "C42",
   "status": "proved",
   "theorems": [
    "Verif.Network.C42_power_balance",
    "Verif.Network.C42_lossless"
   ],
   "note": ""
  },
  {
   "property": "C43",
   "status": "partial",
   "theorems": [
    "Verif.Power.C43_derivative",
    "Verif.Power.C43_increasing_partial",
    "Verif.Power.C43_increasing_sharp",
    "Verif.Power.C43_increasing_false",
    "Verif.Power.C43_connection"
   ],
   "note": "Differentiability, values outside the smoothing interval and the Jacobian entries are proved. That the power increases with the flow is false for efficiencies that differ by more than the factor 3+2*sqrt 2; it is proved below this factor and refuted above."
  },
  {
   "property": "C44",
   "status": "proved",
   "theorems": [
    "Verif.Network.C44_objective",
    "Verif.Network.C44_cost",
    "Verif.Network.C44_constraints",
    "Verif.Network.C44_weight_needed"
   ],
   "note": "The network's own weight is 1 for every network the program builds (no constructor sets it, there is no setter); C44_weight_needed shows that for any other weight evaluate_cost and its derivative would disagree (latent bug). Constraints: every constrained sink must have a gas edge, else undefined behaviour."
  },
  {
   "property": "C45",
   "status": "proved",
   "theorems": [
    "Verif.Json.C45_defined",
    "Verif.Json.C45_throws",
    "Verif.Json.C45_sorted"
   ],
   "note": "Throws exactly if two ids within nodes or within connections are equal; else the result is sorted by id with the same components."
  },
  {
   "property": "C46",
   "status": "partial",
   "theorems": [
    "Verif.Json.C46_false",
    "Verif.Json.C46_merge_partial",
    "Verif.Json.C46_complete_partial",
    "Verif.Json.C46_json_partial",
    "Verif.Factory.C46_network"
   ],
   "note": "False as stated (C46_false): after the second list is exhausted, the remaining components silently get no entry. Proved: where entries go, that all get one if the last component has one, and (C46_network, see C71) that schema validation later rejects components that got none."
  },
  {
   "property": "C47",
   "status": "proved",
   "theorems": [
    "Verif.Initial.C47_missing",
    "Verif.Initial.C47_initial",
    "Verif.Initial.C47_controls"
   ],
   "note": "Components with distinct ids (C48). Surplus entries lead to a warning only, which is characterised too."
  },
  {
   "property": "C48",
   "status": "proved",
   "theorems": [
    "Verif.Factory.C48_graph",
    "Verif.Factory.C48_ids",
    "Verif.Factory.C48_loop",
    "Verif.Factory.C48_check",
    "Verif.Factory.C48_node_by_id",
    "Verif.Factory.C48_edge_by_id",
    "Verif.Factory.C48_edge_by_ends",
    "Verif.Factory.C48_connected",
    "Verif.Factory.C48_admissible"
   ],
   "note": "For all jsons and component types from which a network is built. The verdict of the schema validator is a parameter, so the theorems hold for every validator. C48_check: the checks in the constructor of the network can never fail. C48_admissible connects to the theorems about whole networks."
  },
  {
   "property": "C49",
   "status": "proved",
   "theorems": [
    "Verif.Factory.C49_components",
    "Verif.Factory.C49_unknown",
    "Verif.Factory.C49_unknown_type",
    "Verif.Factory.C49_nodes"
   ],
   "note": "One component per entry, of the type of the entry and with everything the entry has, up to the order of types and ids."
  },
  {
   "property": "C50",
   "status": "proved",
   "theorems": [
    "Verif.Json.C50_kept",
    "Verif.Json.C50_exact",
    "Verif.Json.C50_rejected",
    "Verif.Json.C50_applied",
    "Verif.Json.C50_defined",
    "Verif.Json.C50_flat",
    "Verif.Json.C50_nested_twice",
    "Verif.Json.C50_added_once",
    "Verif.Json.C50_added"
   ],
   "note": "C50_rejected and C50_applied are about apply_defaults as a whole, C50_kept to C50_flat about its recursive part. C50_nested_twice shows that nested defaults can give other results on repetition; C50_added shows this cannot happen for defaults written by add_defaults."
  },
  {
   "property": "C51",
   "status": "proved",
   "theorems": [
    "Verif.Json.C51_clean",
    "Verif.Json.C51_pruned"
   ],
   "note": "For all schemas and depths."
  },
  {
   "property": "C52",
   "status": "proved",
   "theorems": [
    "Verif.Unit.C52_meaning",
    "Verif.Unit.C52_rejected",
    "Verif.Unit.C52_unique",
    "Verif.Unit.C52_increasing",
    "Verif.Unit.C52_tables_sorted",
    "Verif.Unit.C52_prefixes",
    "Verif.Unit.C52_units",
    "Verif.Unit.C52_rounded"
   ],
   "note": "Rational numbers, no overflow in stod; the json shape of a measurement is assumed to be validated."
  },
  {
   "property": "C53",
   "status": "partial",
   "theorems": [
    "Verif.Files.C53_crash_safe_partial",
    "Verif.Files.C53_returns_partial",
    "Verif.Files.C53_others_untouched",
    "Verif.Files.C53_can_succeed",
    "Verif.Files.C53_concurrent_partial",
    "Verif.Files.C53_silent_false",
    "Verif.Files.C53_name_false",
    "Verif.Files.C53_concurrent_false"
   ],
   "note": "Proved for every crash point and every failure that throws. False for failures of the output stream, which go unnoticed (data loss), for the file tmp_backup itself, and for two programs in the same directory, as they share one backup."
  },
  {
   "property": "C54",
   "status": "proved",
   "theorems": [
    "Verif.Files.Unique.C54_distinct",
    "Verif.Files.Unique.C54_directory",
    "Verif.Files.Unique.C54_bounded"
   ],
   "note": "Every interleaving of any number of processes and of other programs that don't remove files, arbitrary generated names."
  },
  {
   "property": "C55",
   "status": "proved",
   "theorems": [
    "Verif.Files.Unique.C55_nothing_overwritten",
    "Verif.Files.Unique.C55_distinct",
    "Verif.Files.Unique.C55_gives_up",
    "Verif.Files.Unique.C55_prepare"
   ],
   "note": "Every interleaving; also for the files created in the output directory."
  },
  {
   "property": "C56",
   "status": "partial",
   "theorems": [
    "Verif.Files.Root.C56_accepted",
    "Verif.Files.Root.C56_exact_partial",
    "Verif.Files.Root.C56_false",
    "Verif.Files.Root.C56_trailing_slash_false"
   ],
   "note": "Acceptance is exact. For paths above the root, reading behind the end of the shorter path is undefined behaviour. The root has to be as current_path gives it (as in all callers)."
  },
  {
   "property": "C57",
   "status": "proved",
   "theorems": [
    "Verif.Stochastic.C57_within",
    "Verif.Stochastic.C57_throws",
    "Verif.Stochastic.C57_default"
   ],
   "note": "For an arbitrary generator, so for every random sequence."
  },
  {
   "property": "C58",
   "status": "partial",
   "theorems": [
    "Verif.Stochastic.C58_stable",
    "Verif.Stochastic.C58_zero",
    "Verif.Stochastic.C58_kept",
    "Verif.Stochastic.C58_contracts",
    "Verif.Stochastic.C58_total_partial",
    "Verif.Stochastic.C58_false"
   ],
   "note": "Every number that is returned is good; but for huge products theta*dt the conversion to int is undefined behaviour."
  },
  {
   "property": "C59",
   "status": "partial",
   "theorems": [
    "Verif.Stochastic.C59_within_partial",
    "Verif.Stochastic.C59_nearest",
    "Verif.Stochastic.C59_false"
   ],
   "note": "Proved for every mean except zero. With mean zero nothing is cut off."
  },
  {
   "property": "C60",
   "status": "partial",
   "theorems": [
    "Verif.Stochastic.C60_last_reported",
    "Verif.Stochastic.C60_last_partial",
    "Verif.Stochastic.C60_false"
   ],
   "note": "False: the demand of the last step is written for all times; right only for the last time."
  },
  {
   "property": "C61",
   "status": "proved",
   "theorems": [
    "Verif.Helpers.C61_exact",
    "Verif.Helpers.C61_order"
   ],
   "note": "Any number of runs, real numbers."
  },
  {
   "property": "C62",
   "status": "partial",
   "theorems": [
    "Verif.Helpers.C62_bounds_partial",
    "Verif.Helpers.C62_nested_partial",
    "Verif.Helpers.C62_false"
   ],
   "note": "False for every number of samples below eleven (reads behind the end); proved for eleven and more."
  },
  {
   "property": "C63",
   "status": "partial",
   "theorems": [
    "Verif.Helpers.C63_documented_partial",
    "Verif.Helpers.C63_actual",
    "Verif.Helpers.C63_defined",
    "Verif.Helpers.C63_false"
   ],
   "note": "False: the step before is extracted; what is extracted in fact is proved in C63_actual."
  },
  {
   "property": "C64",
   "status": "proved",
   "theorems": [
    "Verif.Initial.C64_component",
    "Verif.Initial.C64_component_defined",
    "Verif.Initial.C64_too_many",
    "Verif.Initial.C64_network",
    "Verif.Initial.C64_disjoint",
    "Verif.Initial.C64_controls",
    "Verif.Initial.C64_network_controls"
   ],
   "note": "For single components and whole networks; if the json has several entries with the same id, the last one counts."
  },
  {
   "property": "C65",
   "status": "proved",
   "theorems": [
    "Verif.Gas.C65_revert",
    "Verif.Gas.C65_missing",
    "Verif.Gas.C65_sink_source",
    "Verif.Gas.C65_demand"
   ],
   "note": "Reverting on the json level (same times, negative values, involution, everything else unchanged), equality of the constructed sink with the source of negative flow, and the meaning of the residual: the flows into the node sum up to the interpolated demand. The schema validator is a parameter that accepts well-formed boundary data."
  },
  {
   "property": "C66",
   "status": "proved",
   "theorems": [
    "Verif.Interp.C66_from_json"
   ],
   "note": "sortedness of the json entries is not checked by the code"
  },
  {
   "property": "C67",
   "status": "proved",
   "theorems": [
    "Verif.Interp.C67_interpolate_from",
    "Verif.Interp.C67_construct"
   ],
   "note": ""
  },
  {
   "property": "C68",
   "status": "partial",
   "theorems": [
    "Verif.Times.C68_false",
    "Verif.Times.C68_control_grid_partial",
    "Verif.Times.C68_controls_cover"
   ],
   "note": "False for number_of_steps = 1, which is accepted and gives a single control time. Proved for all other settings."
  },
  {
   "property": "C69",
   "status": "partial",
   "theorems": [
    "Verif.Network.C69_network_derivative_partial",
    "Verif.Network.C69_false"
   ],
   "note": "All networks of all component types; false in states with fully turbulent flow in a pipe: C69_false gives a network and a state where the matrix of the code is not the derivative (C33, C34)."
  },
  {
   "property": "C70",
   "status": "proved",
   "theorems": [
    "Verif.Network.C70_same_positions",
    "Verif.Network.C70_inside",
    "Verif.Network.C70_reuse"
   ],
   "note": ""
  },
  {
   "property": "C71",
   "status": "proved",
   "theorems": [
    "Verif.Factory.C46_network",
    "Verif.Factory.typeSchema_boundary",
    "Verif.Factory.prepare_boundary"
   ],
   "note": "The validator is a parameter, of which only is supposed that it rejects objects without a required key."
  },
  {
   "property": "C72",
   "status": "proved",
   "theorems": [
    "Verif.Network.C72_residual_iff_laws"
   ],
   "note": "Equivalence, for every admissible network with defined boundary values and real pipes. Exact arithmetic."
  },
  {
   "property": "C73",
   "status": "partial",
   "theorems": [
    "Verif.Network.C73_network_gradient_partial",
    "Verif.Network.C73_false",
    "Verif.Network.C90_gradient_partial"
   ],
   "note": "All networks, grids and controls, in reused matrices after any history. The full statement, C73Statement, includes turbulent flow in pipes and is false (C73_false: a compressor and a pipe with turbulent flow, where the Jacobian is not the derivative); the partial theorem excludes turbulent flow and constraint times for which the sweep reads out of bounds (C18); the sparse LU is exact and states depend continuously on the controls."
  },
  {
   "property": "C74",
   "status": "partial",
   "theorems": [
    "Verif.Network.C74_constraint_partial",
    "Verif.Network.C74_constraint_false"
   ],
   "note": "False for sinks at a pipe, where the constraint bounds the density (witness); proved for sinks without pipes."
  },
  {
   "property": "C75",
   "status": "proved",
   "theorems": [
    "Verif.Network.C75_gas_conserved",
    "Verif.Network.C75_simulation"
   ],
   "note": "For exactly solved steps, over any number of steps; every flow node needs at least one gas edge."
  },
  {
   "property": "C76",
   "status": "partial",
   "theorems": [
    "Verif.Unit.C76_usable_partial",
    "Verif.Unit.C76_usable_false"
   ],
   "note": "False for m^2 (and m^3): always rejected; proved for all other units."
  },
  {
   "property": "C77",
   "status": "proved",
   "theorems": [
    "Verif.Schema.C77_accepts",
    "Verif.Schema.C77_read",
    "Verif.Schema.C77_single",
    "Verif.Schema.C77_short",
    "Verif.Schema.C77_pipe",
    "Verif.Schema.C77_single_set",
    "Verif.Schema.C77_short_set",
    "Verif.Schema.C77_sorted_false"
   ],
   "note": "The points need not be sorted (C77_sorted_false); for short components this gives an exception later (C77_short_set)."
  },
  {
   "property": "C78",
   "status": "partial",
   "theorems": [
    "Verif.Schema.C78_accepts",
    "Verif.Schema.C78_read_false",
    "Verif.Schema.C78_read_partial",
    "Verif.Schema.C78_complete"
   ],
   "note": "False as stated: entries without time or values and empty lists pass validation, and reading them is undefined behaviour (C78_read_false). True if all entries are complete."
  },
  {
   "property": "C79",
   "status": "proved",
   "theorems": [
    "Verif.Output.C79_states"
   ],
   "note": "For any ordered field and any way of printing numbers. The reported powers are a parameter of a node; boundary values needed for them must have values at the saved times, otherwise the output throws (see C108)."
  },
  {
   "property": "C80",
   "status": "proved",
   "theorems": [
    "Verif.Output.C80_restart",
    "Verif.Output.C80_last"
   ],
   "note": "Assumes that converting a density to a pressure can be undone, which C31 proves for the laws in the code over the reals. The documentation of the helper promises another time step, see C63."
  },
  {
   "property": "C81",
   "status": "proved",
   "theorems": [
    "Verif.Output.C81_written",
    "Verif.Output.C81_round_trip"
   ],
   "note": "The file is written as controls.json but read as control.json, so that it must be renamed."
  },
  {
   "property": "C82",
   "status": "proved",
   "theorems": [
    "Verif.Evolve.C82_continue",
    "Verif.Evolve.C82_newton",
    "Verif.Output.C82_from_file"
   ],
   "note": "prepare_timestep is left out; with random demands (StochasticPQnode) it changes the problem, and the property is not claimed."
  },
  {
   "property": "C83",
   "status": "proved",
   "theorems": [
    "Verif.Network.C83_laws_within"
   ],
   "note": "Quantitative form of C72, all component types; exact arithmetic."
  },
  {
   "property": "C84",
   "status": "proved",
   "theorems": [
    "Verif.Network.C84_drift"
   ],
   "note": "Quantitative form of C75; every flow node needs at least one gas edge."
  },
  {
   "property": "C85",
   "status": "proved",
   "theorems": [
    "Verif.Network.C85_simulation",
    "Verif.Network.C85_balance"
   ],
   "note": "simulate, the Newton solver and the network equations together; factorization arbitrary. States with NaN or a division by zero are excluded in the statement because the solver accepts NaN (C22_false)."
  },
  {
   "property": "C86",
   "status": "partial",
   "theorems": [
    "Verif.OptState.C86_files_agree_partial",
    "Verif.OptState.C86_evaluated",
    "Verif.OptState.C86_false"
   ],
   "note": "False of the code if the simulation fails at the returned point (e.g. at the starting point): the files are written anyway. Proved whenever the simulation of the solution succeeds."
  },
  {
   "property": "C87",
   "status": "partial",
   "theorems": [
    "Verif.OptState.C87_violations_partial",
    "Verif.OptState.C87_stale_false",
    "Verif.OptState.C87_empty_false"
   ],
   "note": "False of the code: the constraints are evaluated without announcing the new point, so those of the last trial point are printed; without constraints it is undefined behaviour (in whole runs an exception comes first, C144). Proved if the last evaluation was at the solution and there are constraints."
  },
  {
   "property": "C88",
   "status": "proved",
   "theorems": [
    "Verif.Evolve.C88_kept",
    "Verif.Network.C88_any_step",
    "Verif.Network.C88_equilibrium"
   ],
   "note": "Whole simulations of admissible networks."
  },
  {
   "property": "C89",
   "status": "proved",
   "theorems": [
    "Verif.Network.C89_direction",
    "Verif.Network.C89_exists",
    "Verif.Network.C89_residual"
   ],
   "note": "For any set of pipes, short pipes and lines; laws and residual."
  },
  {
   "property": "C90",
   "status": "proved",
   "theorems": [
    "Verif.Network.C90_pattern",
    "Verif.Network.C90_reuse",
    "Verif.Network.C90_gradient_partial"
   ],
   "note": "Histories consist of calls that returned true or false. A call that throws is not followed by another: nothing in the repository catches the exception below the command level; that Ipopt does not go on after it is assumed. C90_reuse assumes that the derivatives of the call in question can be evaluated. C90_gradient_partial is the combination with C73 and has its exceptions."
  },
  {
   "property": "C91",
   "status": "proved",
   "theorems": [
    "Verif.Network.C91_equations",
    "Verif.Network.C91_exists",
    "Verif.Network.C91_simulation"
   ],
   "note": "In real numbers. Residual and Jacobian are the same entry by entry; the factorization is an arbitrary function of the Jacobian. Demands of stochastic nodes are prescribed values here."
  },
  {
   "property": "C92",
   "status": "proved",
   "theorems": [
    "Verif.Network.C92_equations",
    "Verif.Network.C92_simulation"
   ],
   "note": "In real numbers. The factorization is an arbitrary function of the Jacobian. Demands of stochastic nodes are prescribed values here."
  },
  {
   "property": "C93",
   "status": "proved",
   "theorems": [
    "Verif.Float.C93_nodes",
    "Verif.Float.C93_range",
    "Verif.Float.C93_accuracy",
    "Verif.Float.C93_constants_change"
   ],
   "note": "For every rounding in the sense of Rounding; binary64 (round to nearest, ties to even, 53 digits, unbounded exponent) is one. C93_constants_change shows that some overshoot is unavoidable in the code."
  },
  {
   "property": "C94",
   "status": "partial",
   "theorems": [
    "Verif.Float.C94_false",
    "Verif.Float.C94_simulation_false",
    "Verif.Float.C94_number_false",
    "Verif.Float.C94_grid",
    "Verif.Float.C94_increasing",
    "Verif.Float.C94_data_partial"
   ],
   "note": "False for double: the last time may lie more than 1e-10 after the end (two days in steps of at most 59 minutes), and the grid may have one point more than reported. Proved: start, monotonicity and accuracy of the grid, and that data suffice if the accumulated rounding errors are below the tolerance of the evaluation."
  },
  {
   "property": "C95",
   "status": "partial",
   "theorems": [
    "Verif.Json.C95_sorted",
    "Verif.Factory.C95_network",
    "Verif.Initial.C95_initial_partial",
    "Verif.Initial.C95_controls_partial",
    "Verif.Initial.C95_initial_false"
   ],
   "note": "Proved without restriction for topology and boundary values. For initial values and controls it is false if an id occurs twice in the file: this is not rejected, and the last entry counts (C95_initial_false); proved if the ids in the file are distinct."
  },
  {
   "property": "C96",
   "status": "proved",
   "theorems": [
    "Verif.Stochastic.C96_reproduced",
    "Verif.Stochastic.C96_same_node",
    "Verif.Stochastic.C96_reported",
    "Verif.Stochastic.C96_included",
    "Verif.Stochastic.C96_includes",
    "Verif.Stochastic.C96_seed",
    "Verif.Stochastic.C96_removed"
   ],
   "note": "For boundary values in which all entries have times and values (otherwise see C78). That equal nodes give equal runs also needs the same initial values, settings and arithmetic, and the same behaviour of the library for normally distributed numbers."
  },
  {
   "property": "C97",
   "status": "partial",
   "theorems": [
    "Verif.Stochastic.C97_seed_partial",
    "Verif.Stochastic.C97_repeat_partial",
    "Verif.Stochastic.C97_false"
   ],
   "note": "False of the code: stochastic nodes keep their generators, so a second simulation with the same controls draws other demands (C97_false). Proved for networks without noise (no stochastic nodes, or both sigmas zero)."
  },
  {
   "property": "C98",
   "status": "partial",
   "theorems": [
    "Verif.Stochastic.C98_without_noise_partial",
    "Verif.Stochastic.C98_no_retry_partial",
    "Verif.Stochastic.C98_false"
   ],
   "note": "False of the code: every attempt draws a new demand (C98_false). Proved without noise, and if no attempt fails."
  },
  {
   "property": "C99",
   "status": "proved",
   "theorems": [
    "Verif.Read.C99_components",
    "Verif.Read.C99_boundary"
   ],
   "note": "Topologies whose classes are objects of arrays with distinct type names, as parsing gives. Entries of the boundary json at increasing times (other orders: C66). Stochastic nodes: kind, conductance and susceptance; their random demand is C58 to C60, C96 to C98. Numbers are exact rationals, read as reals."
  },
  {
   "property": "C100",
   "status": "partial",
   "theorems": [
    "Verif.Read.C100_partial",
    "Verif.Read.C100_false"
   ],
   "note": "False of the code: nothing checks that transmission lines join power nodes (C100_false). Proved for files that fit (Read.Fit): edges join nodes of types that are allowed for them, pipes and cells have positive lengths, diameters are at least 10^-11 m and not less than the roughness."
  },
  {
   "property": "C101",
   "status": "proved",
   "theorems": [
    "Verif.Read.C101_simulation",
    "Verif.Read.respects_of"
   ],
   "note": "For files that fit (see C100) and boundary values covering the times, for states free of NaN and of divisions by zero (C85). Exact arithmetic. The demand of stochastic nodes is whatever is drawn; for these only reading is covered."
  },
  {
   "property": "C102",
   "status": "proved",
   "theorems": [
    "Verif.Read.C102_run"
   ],
   "note": "The whole run of the model from the contents of the files to the states. For pipes the pressure is stated up to 440 bar (C31), for lists of points and times in increasing order; a single control time is left out (C68). The linear solver and the contents of uninitialised memory are arbitrary."
  },
  {
   "property": "C103",
   "status": "proved",
   "theorems": [
    "Verif.Read.C103_memory",
    "Verif.Read.C103_optimization"
   ],
   "note": "Equality of the outcomes of Read.run, and of the optimization problem handed to Ipopt (Read.optimization), for any two contents mem, mem' of the memory, for all files, successful or not."
  },
  {
   "property": "C104",
   "status": "proved",
   "theorems": [
    "Verif.Read.C104_problem"
   ],
   "note": "Conclusion Poses in Read.NlpProps; example in Read.NlpExample. Assumes files that fit (C100) and boundary values that cover the times. What Ipopt does with the problem, and derivatives (C73, C90), are not part of it."
  },
  {
   "property": "C105",
   "status": "proved",
   "theorems": [
    "Verif.Read.C105_gradient"
   ],
   "note": "For the whole path from the files to what Ipopt gets. Example in Read/NlpDerivExample.lean: gradient (0, 600)."
  },
  {
   "property": "C106",
   "status": "partial",
   "theorems": [
    "Verif.Read.C106_jacobian_partial",
    "Verif.Read.C106_false"
   ],
   "note": "For the whole path from the files to what Ipopt gets. The full statement, C106Statement, includes turbulent flow in pipes and is false (C106_false: files with a compressor and a pipe of 1, 1/2, 1/3, 1/4 or 1/5 metres, for one of which Ipopt gets a Jacobian that is not the derivative, because of C33); the partial theorem excludes turbulent flow. Example in Read/NlpDerivExample.lean: Jacobian (0, 1)."
  },
  {
   "property": "C107",
   "status": "partial",
   "theorems": [
    "Verif.Read.C107_derivatives_available_partial",
    "Verif.Read.C107_available_iff",
    "Verif.Read.C107_false"
   ],
   "note": "False in general (C107_false): two simulated steps and constraints at every second time, where the sweep reads in front of the array of constraint times (C18). C107_available_iff: derivatives exist exactly if no matrix of the steps is singular and there are no constraints or the first constraint time is the first simulated one."
  },
  {
   "property": "C108",
   "status": "partial",
   "theorems": [
    "Verif.Read.C108_partial",
    "Verif.Read.C108_false"
   ],
   "note": "False of the code: output evaluates the boundary values of PQ and PV nodes also at the first time, which the simulation never does, so that a run whose boundary values begin after the start succeeds and then loses all results (C108_false). Proved if boundary values cover all times from start to end. Results with NaN are not modelled."
  },
  {
   "property": "C109",
   "status": "proved",
   "theorems": [
    "Verif.Read.C109_results"
   ],
   "note": "States, boundary values and laws over the reals; how numbers are printed is arbitrary. The laws are stated in Verif.Read.Results in terms of the files only. For StochasticPQnode see C60."
  },
  {
   "property": "C110",
   "status": "partial",
   "theorems": [
    "Verif.Editor.C110_partial",
    "Verif.Editor.C110_false"
   ],
   "note": "Proved if each default is a value that the schema of its key accepts. False otherwise: a default for a part of a value (the unit of lengths) makes the schema for editors accept pipes without length."
  },
  {
   "property": "C111",
   "status": "partial",
   "theorems": [
    "Verif.Editor.C111_partial",
    "Verif.Editor.C111_false"
   ],
   "note": "Proved for topologies that have both nodes and connections. False otherwise: the schema requires both keys, the program does not."
  },
  {
   "property": "C112",
   "status": "partial",
   "theorems": [
    "Verif.Editor.C112_partial",
    "Verif.Editor.C112_false"
   ],
   "note": "Proved: schemas are generated exactly if the defaults of each type only have keys listed in the schema of the type for the topology. False in general: the program takes default boundary values, the generation throws."
  },
  {
   "property": "C113",
   "status": "partial",
   "theorems": [
    "Verif.Files.C113_partial",
    "Verif.Files.C113_existing",
    "Verif.Files.C113_twice",
    "Verif.Files.C113_others",
    "Verif.Files.C113_false"
   ],
   "note": "Proved for files without the key; an existing key keeps its old value, so that the file may still refer to something else (C113_false). The old content stays if printing throws."
  },
  {
   "property": "C114",
   "status": "partial",
   "theorems": [
    "Verif.Files.C114_partial",
    "Verif.Files.C114_false"
   ],
   "note": "Proved for one run that is killed anywhere, if no failure of an output stream goes unnoticed. False for two runs: after a kill the next run moves another file to the same backup."
  },
  {
   "property": "C115",
   "status": "proved",
   "theorems": [
    "Verif.Files.C115_others",
    "Verif.Files.C115_foreign",
    "Verif.Files.C115_written"
   ],
   "note": "Failures of output streams are not modelled."
  },
  {
   "property": "C116",
   "status": "proved",
   "theorems": [
    "Verif.Read.C116_replay",
    "Verif.Read.C116_files",
    "Verif.Read.C116_results",
    "Verif.Read.C116_controls",
    "Verif.Read.C116_written"
   ],
   "note": "The vector is arbitrary, as Ipopt is not modelled. That numbers are read as they were printed is a hypothesis (nlohmann prints shortest round-trip digits). Stochastic nodes are assumed to draw the same values in both runs."
  },
  {
   "property": "C117",
   "status": "proved",
   "theorems": [
    "Verif.Read.C117_export",
    "Verif.Read.run_exportable",
    "Verif.Output.search_found",
    "Verif.Output.lowerBound_spec",
    "Verif.Factory.buildNet_order"
   ],
   "note": "From all input files to the tables: for every run that writes a file of results, whatever the order in the topology. Stochastic nodes are left out since the deviations in their entries are not modelled; table files must be in the current directory, as the program demands."
  },
  {
   "property": "C118",
   "status": "proved",
   "theorems": [
    "Verif.Network.C118_step",
    "Verif.Network.C118_simulation"
   ],
   "note": "For exact arithmetic and a linear solver that solves every system with invertible matrix. Example: gas nearly at rest in a pipe, 100 steps of a minute, Cramer's rule as linear solver (Network/ConvergeExample.lean). Turbulent flow is excluded in the property, because the derivative of friction is wrong there (C33)."
  },
  {
   "property": "C119",
   "status": "proved",
   "theorems": [
    "Verif.Network.C119_next",
    "Verif.Network.C119_continuation",
    "Verif.Read.C119_variables"
   ],
   "note": "Implicit function theorem with the matrices filled by the components; C119_variables is for problems given by files. Examples in Read/NlpContinueExample.lean. Turbulent flow is excluded in the property (C33)."
  },
  {
   "property": "C120",
   "status": "proved",
   "theorems": [
    "Verif.Command.C120_own_directory",
    "Verif.Command.C120_nothing_lost"
   ],
   "note": "Each step of a run is a step of an interleaving with other runs and programs; std::filesystem::create_directory and fopen with mode wx are atomic (trusted base)."
  },
  {
   "property": "C121",
   "status": "partial",
   "theorems": [
    "Verif.Command.C121_exit_partial",
    "Verif.Command.C121_result_partial",
    "Verif.Command.C121_undefined",
    "Verif.Command.C121_succeeds",
    "Verif.Command.C121_false"
   ],
   "note": "False as stated: the state of std::ofstream is not looked at, so a run on a full disk returns 0 with an empty file (C121_false). Proved for file systems on which writing works; also that a run can succeed whenever results can be computed."
  },
  {
   "property": "C122",
   "status": "partial",
   "theorems": [
    "Verif.Command.C122_copy",
    "Verif.Command.C122_same_partial",
    "Verif.Command.C122_repeat_partial",
    "Verif.Command.C122_false",
    "Verif.Command.C122_changed_false"
   ],
   "note": "False for problems that name files outside of their directory by relative paths (C122_false) and if the problem is changed while the run computes, as the copy is made afterwards (C122_changed_false). Proved otherwise."
  },
  {
   "property": "C123",
   "status": "partial",
   "theorems": [
    "Verif.Command.C123_used_partial",
    "Verif.Command.C123_partial",
    "Verif.Command.C123_false",
    "Verif.Command.C123_missing_false",
    "Verif.Command.C123_optimize_false"
   ],
   "note": "False as stated: fractions are cut off silently (C123_false), missing times are undefined behaviour (C123_missing_false), a value of optimize that is no boolean is ignored (C123_optimize_false). Proved if the times are there and whole numbers are whole."
  },
  {
   "property": "C124",
   "status": "partial",
   "theorems": [
    "Verif.Command.C124_results_partial",
    "Verif.Command.C124_references",
    "Verif.Command.C124_false"
   ],
   "note": "False for optimizations: the status Ipopt returns is not looked at (C124_false). Proved but for the optimum, for file systems on which writing works and problems with files in their own directory or at absolute paths that are not changed during the run; laws as in C109, under its conditions (Sound)."
  },
  {
   "property": "C125",
   "status": "partial",
   "theorems": [
    "Verif.Command.C125_false",
    "Verif.Read.C125_step_false",
    "Verif.Read.C125_empty_false",
    "Verif.Read.C125_single_false",
    "Verif.Read.C125_run_partial",
    "Verif.Read.C125_file_partial",
    "Verif.Read.C125_optimization_partial",
    "Verif.Read.C125_evaluations_partial",
    "Verif.Read.C125_optimized_partial",
    "Verif.Command.C125_program_partial",
    "Verif.Command.C125_process_partial"
   ],
   "note": "False in general: missing settings, a wished time step of zero, empty lists of boundary values, a single control time in an optimization. Proved for clean files, for simulations and optimizations, up to damping loops without end (C23); the derivatives also need that the sweep does not run into C18."
  },
  {
   "property": "C126",
   "status": "proved",
   "theorems": [
    "Verif.Read.C126_read"
   ],
   "note": "For StochasticPQnodes the construction of the random demand (a parameter of the model) is assumed to succeed. Concrete case: Verif/Read/AcceptExample.lean."
  },
  {
   "property": "C127",
   "status": "proved",
   "theorems": [
    "Verif.Read.C127_run"
   ],
   "note": "Numbers are real numbers (see C94 for rounding of times). For StochasticPQnodes the random demand (a parameter of the model) is assumed to succeed. Concrete case: Verif/Read/AcceptRunExample.lean."
  },
  {
   "property": "C128",
   "status": "partial",
   "theorems": [
    "Verif.Helpers.C128_partial",
    "Verif.Helpers.C128_false"
   ],
   "note": "Proved for files in which the flow of every source is constant and the flows do not sum up to zero. False in general: C128_false gives a file with a source that is not constant; the program reports this, but scales with the sum up to there and overwrites the file."
  },
  {
   "property": "C129",
   "status": "partial",
   "theorems": [
    "Verif.Helpers.C129_partial",
    "Verif.Helpers.C129_false"
   ],
   "note": "Proved for files in which all pressures are numbers. False in general: C129_false gives a file of which one pressure is increased and another one is not, because the file is written after an exception."
  },
  {
   "property": "C130",
   "status": "partial",
   "theorems": [
    "Verif.Helpers.C130_partial",
    "Verif.Helpers.C130_false",
    "Verif.Helpers.C130_defined_false"
   ],
   "note": "Proved for files in which all these flows are numbers. False in general: after an exception the sum up to there is printed (C130_false), with a short pipe with one point the behaviour is undefined (C130_defined_false)."
  },
  {
   "property": "C131",
   "status": "partial",
   "theorems": [
    "Verif.Helpers.C131_partial",
    "Verif.Helpers.C131_false"
   ],
   "note": "Proved if all files can be read and list components with ids. False in general: C131_false gives a problem with a missing file; files before it are changed and those after it are not."
  },
  {
   "property": "C132",
   "status": "partial",
   "theorems": [
    "Verif.Helpers.C132_partial",
    "Verif.Helpers.C132_twice",
    "Verif.Helpers.C132_false",
    "Verif.Helpers.C132_empty_false"
   ],
   "note": "Proved if the files list gas power connections, none with the new id; if the topology has the new id already, an error is reported and nothing changed (C132_twice). False in general: without such a list the program ends without error and without a connection (C132_false), with an empty list its behaviour is undefined (C132_empty_false)."
  },
  {
   "property": "C133",
   "status": "proved",
   "theorems": [
    "Verif.Read.C133_export",
    "Verif.Output.C133_numbers"
   ],
   "note": "From the files of a problem to the table. The table must be in the current directory (C56), printing numbers is a parameter. Files that are begun before an exception are left out of the model; for files written by an optimization there is none. C133_numbers is about any file of controls, also a wrong one."
  },
  {
   "property": "C134",
   "status": "proved",
   "theorems": [
    "Verif.Box.C134_truncation",
    "Verif.Box.C134_consistency",
    "Verif.Box.C134_pipe"
   ],
   "note": "Smooth means three times continuously differentiable. Convergence of the computed states (which needs stability) is not claimed."
  },
  {
   "property": "C135",
   "status": "proved",
   "theorems": [
    "Verif.Box.C135_friction",
    "Verif.Box.C135_cell",
    "Verif.Box.C135_pipe"
   ],
   "note": "A real pipe has a diameter of at least 1e-11 m and a roughness between zero and the diameter."
  },
  {
   "property": "C136",
   "status": "proved",
   "theorems": [
    "Verif.Network.C136_downhill",
    "Verif.Network.C136_no_circulation",
    "Verif.Network.C136_rest"
   ],
   "note": "For states that satisfy the equations exactly."
  },
  {
   "property": "C137",
   "status": "proved",
   "theorems": [
    "Verif.Network.C137_passive"
   ],
   "note": ""
  },
  {
   "property": "C138",
   "status": "proved",
   "theorems": [
    "Verif.Jacobian.C138_indices"
   ],
   "note": "64 bit indices are taken as unbounded."
  },
  {
   "property": "C139",
   "status": "partial",
   "theorems": [
    "Verif.Float.C139_partial",
    "Verif.Float.C139_process",
    "Verif.Float.C139_rounded",
    "Verif.Float.C139_false"
   ],
   "note": "Holds without rounding; in double arithmetic the last row can be missing (one hour in seven steps), at most one row is."
  },
  {
   "property": "C140",
   "status": "partial",
   "theorems": [
    "Verif.Json.C140_partial",
    "Verif.Json.C140_complete_partial",
    "Verif.Json.C140_file_partial",
    "Verif.Json.C140_file_complete_partial",
    "Verif.Json.C140_false"
   ],
   "note": "Components whose ids are greater than those of all positions of their type are left without position silently."
  },
  {
   "property": "C141",
   "status": "proved",
   "theorems": [
    "Verif.Interp.Views.C141_call",
    "Verif.Interp.Views.C141_const",
    "Verif.Interp.Views.C141_history",
    "Verif.Interp.Views.C141_construct"
   ],
   "note": "The caller's arrays must exist as long as the views. The source of an interpolation or assignment must be another vector that does not lie in the cells being written (otherwise Eigen's aliasing rules apply; for partly shared cells an assignment counts as undefined). Assertions are off."
  },
  {
   "property": "C142",
   "status": "proved",
   "theorems": [
    "Verif.Editor.C142_initial",
    "Verif.Editor.C142_control",
    "Verif.Editor.C142_boundary",
    "Verif.Editor.C142_program"
   ],
   "note": "Each entry may be in any order; the schemas require both sections, which the program does not (see C111)."
  },
  {
   "property": "C143",
   "status": "proved",
   "theorems": [
    "Verif.Jacobian.C143_call",
    "Verif.Jacobian.C143_mismatch",
    "Verif.Jacobian.C143_null",
    "Verif.Jacobian.C143_replace",
    "Verif.Jacobian.C143_ipopt",
    "Verif.Jacobian.C143_equal"
   ],
   "note": "Assigning an object that shares only a part of the cells is not claimed (Sensible)."
  },
  {
   "property": "C144",
   "status": "partial",
   "theorems": [
    "Verif.Command.C144_partial",
    "Verif.Command.C144_without",
    "Verif.Command.C144_program",
    "Verif.Command.C144_false"
   ],
   "note": "False without constraints: an exception is always thrown after Ipopt has returned (C144_without), for whole runs C144_program. With a constrained sink the files are written."
  },
  {
   "property": "C145",
   "status": "proved",
   "theorems": [
    "Verif.Helpers.Discrepance.C145_files",
    "Verif.Helpers.Discrepance.C145_power",
    "Verif.Helpers.Discrepance.C145_gas",
    "Verif.Helpers.Discrepance.C145_points",
    "Verif.Helpers.Discrepance.C145_empty"
   ],
   "note": "Rational numbers. C145_files is about whole files and the choice of files; the other theorems about the components of one type."
  },
  {
   "property": "C146",
   "status": "partial",
   "theorems": [
    "Verif.Helpers.Discrepance.C146_partial",
    "Verif.Helpers.Discrepance.C146_gas_partial",
    "Verif.Helpers.Discrepance.C146_component",
    "Verif.Helpers.Discrepance.C146_files",
    "Verif.Helpers.Discrepance.C146_false"
   ],
   "note": "False in the first run, where the component is compared with the next one of the reference; proved for all later runs, also for components that the first run added (C146_component). C146_files: whole classes and types the reference has must be in every file."
  },
  {
   "property": "C147",
   "status": "partial",
   "theorems": [
    "Verif.Euler.C147_partial",
    "Verif.Euler.C147_false"
   ],
   "note": "False: the loop ends as soon as f is negative. Proved: the result is defined, positive and never below the solution."
  },
  {
   "property": "C148",
   "status": "partial",
   "theorems": [
    "Verif.Helpers.Boundary.C148_partial",
    "Verif.Helpers.Boundary.C148_gas",
    "Verif.Helpers.Boundary.C148_nodes",
    "Verif.Helpers.Boundary.C148_false"
   ],
   "note": "False as stated: the list of a node's quantities is compared, unsorted, with sorted lists, so with Q before P (or V before P, phi before V) type and data are silently left out (C148_false). Proved for the order the program expects, with any conditions of other nodes in between; gas nodes and the set of nodes without restriction."
  },
  {
   "property": "C149",
   "status": "partial",
   "theorems": [
    "Verif.Helpers.Boundary.C149_partial",
    "Verif.Helpers.Boundary.sortNodes_ub",
    "Verif.Helpers.Boundary.C149_false"
   ],
   "note": "False as stated: a node with conditions in the other order gets no type and vanishes from the topology (C149_false). Proved if each node has a type. A power node without boundary condition is undefined behaviour (sortNodes_ub)."
  },
  {
   "property": "C150",
   "status": "partial",
   "theorems": [
    "Verif.Helpers.Heatmap.C150_actual",
    "Verif.Helpers.Heatmap.C150_false",
    "Verif.Helpers.Heatmap.C150_painted"
   ],
   "note": "False, not only for a witness but always: the search for the largest pressure of an edge starts at the smallest value up to now, which is the largest double in the beginning, so both ends of the scale are the largest double for all results, and each edge and the legend are painted green (C150_actual). What remains true: the program finishes and draws each edge once. With any right scale the painting would be right (C150_painted)."
  },
  {
   "property": "C151",
   "status": "partial",
   "theorems": [
    "Verif.Helpers.Heatmap.C151_scale",
    "Verif.Helpers.Heatmap.C151_partial",
    "Verif.Helpers.Heatmap.C151_false"
   ],
   "note": "The scale is right (C151_scale). The colour is false: the value is set to the minimum before the loop over the nodes of a type instead of inside of it, so a node is painted by the largest power of the nodes of its type up to itself (C151_partial, C151_false)."
  },
  {
   "property": "C152",
   "status": "proved",
   "theorems": [
    "Verif.Helpers.Heatmap.C152_range",
    "Verif.Helpers.Heatmap.C152_extremes",
    "Verif.Helpers.Heatmap.C152_monotone",
    "Verif.Helpers.Heatmap.C152_legend"
   ],
   "note": "Rational numbers instead of double; the case of equal ends (0/0, not a number) is modelled."
  },
  {
   "property": "C153",
   "status": "proved",
   "theorems": [
    "Verif.Read.C153_convex"
   ],
   "note": "From the files to the objective: sum over the times of weighted squares of combinations of the variables. The rounding of floating point numbers is not modelled."
  },
  {
   "property": "C154",
   "status": "proved",
   "theorems": [
    "Verif.Float.C154_objective",
    "Verif.Float.C154_zero"
   ],
   "note": "Overflow and underflow are left out, as in all of Float. Without rounding the model is that of C12 (objective_exact)."
  },
  {
   "property": "C155",
   "status": "partial",
   "theorems": [
    "Verif.Helpers.C155_partial",
    "Verif.Helpers.C155_large",
    "Verif.Helpers.C155_false"
   ],
   "note": "Fixed notation, wholly readable, within half a unit of the last decimal, monotone, exact for numbers with at most as many decimals; floating point numbers of at least 2^24 are restored. Small numbers are not: 1e-10 is written as zero."
  },
  {
   "property": "C156",
   "status": "proved",
   "theorems": [
    "Verif.Helpers.C156_file",
    "Verif.Helpers.C156_throws",
    "Verif.Helpers.C156_twice"
   ],
   "note": "For all files of values; with missing or non-numeric values nothing is written; the new file cannot be converted again."
  },
  {
   "property": "C157",
   "status": "proved",
   "theorems": [
    "Verif.Stochastic.SeedSeq.C157_restore",
    "Verif.Stochastic.SeedSeq.C157_report",
    "Verif.Stochastic.SeedSeq.C157_uniform"
   ],
   "note": "For every size of the store; words as BitVec 32."
  },
  {
   "property": "C158",
   "status": "proved",
   "theorems": [
    "Verif.Stochastic.SeedSeq.C158_different",
    "Verif.Stochastic.SeedSeq.C158_all",
    "Verif.Stochastic.SeedSeq.C158_vary",
    "Verif.Stochastic.SeedSeq.C158_drawn",
    "Verif.Stochastic.SeedSeq.C158_counter"
   ],
   "note": "Up to the words that are handed to the generator; pcg64 itself is not part of the repository. Within one process the counter repeats after 2^31 draws (counter_repeats)."
  },
  {
   "property": "C159",
   "status": "partial",
   "theorems": [
    "Verif.Helpers.Draw.C159_drawn",
    "Verif.Helpers.Draw.C159_power",
    "Verif.Helpers.Draw.C159_partial",
    "Verif.Helpers.Draw.C159_false"
   ],
   "note": "Proved for power networks and their heat maps, and for gas networks of sources, sinks and inner nodes. False for gas networks with ConstraintSink or Pressureboundarynode nodes, and for gas heat maps with sinks: lines end in nodes that are not drawn."
  },
  {
   "property": "C160",
   "status": "partial",
   "theorems": [
    "Verif.Helpers.Draw.C160_positions",
    "Verif.Helpers.Draw.C160_standard",
    "Verif.Helpers.Draw.C160_label",
    "Verif.Helpers.Draw.C160_false"
   ],
   "note": "Rational numbers. Proved for every given factor and for the default of the gas programs; false for the default of the power programs, which is 1/10."
  },
  {
   "property": "C161",
   "status": "proved",
   "theorems": [
    "Verif.Helpers.Draw.C161"
   ],
   "note": "Rational numbers; for gas, positions must be between the lowest and the largest double."
  },
  {
   "property": "C162",
   "status": "proved",
   "theorems": [
    "Verif.Helpers.Collect.C162_means"
   ],
   "note": "Whole program with real numbers for means and deviations; the values in the files are rational. Hypothesis: all files that are used are laid out alike, as the documentation of the program demands."
  },
  {
   "property": "C163",
   "status": "partial",
   "theorems": [
    "Verif.Helpers.Collect.C163_quantiles_partial",
    "Verif.Helpers.Collect.C163_median_false",
    "Verif.Helpers.Collect.C163_few_false"
   ],
   "note": "Proved for at least eleven files, the median only for even numbers of files. False otherwise: with eleven files with the values 0 to 10 the median written is 6, and with ten files an array is read behind its end."
  },
  {
   "property": "C164",
   "status": "partial",
   "theorems": [
    "Verif.InitialStrings.C164_partial",
    "Verif.InitialStrings.C164_lists_partial",
    "Verif.InitialStrings.C164_false"
   ],
   "note": "Values that are not in a list stay strings, because the program asks whether they are objects instead of strings. std::stod is a parameter."
  },
  {
   "property": "C165",
   "status": "proved",
   "theorems": [
    "Verif.Box.C165"
   ],
   "note": "Both directions of flow; stationary states are states that solve the equations of every time step."
  },
  {
   "property": "C166",
   "status": "partial",
   "theorems": [
    "Verif.Box.C166_partial",
    "Verif.Box.C166_false"
   ],
   "note": "Holds if the square of the velocity plus the friction over half a cell is below the square of the speed of sound. False in general: in a long cell there are two subsonic stationary states with the same flow and pressure of supply."
  },
  {
   "property": "C167",
   "status": "proved",
   "theorems": [
    "Verif.Network.C167_flows",
    "Verif.Network.C167"
   ],
   "note": "C167_flows needs no bound on the velocity. The friction to spare is needed: see C166."
  },
  {
   "property": "C168",
   "status": "partial",
   "theorems": [
    "Verif.Timestamp.C168_partial",
    "Verif.Timestamp.C168_distinct",
    "Verif.Timestamp.C168_false"
   ],
   "note": "Different names always. The order holds for different seconds and in the last nine tenths of a second; false within a second in general, since milliseconds are written without leading zeros (12 comes before 5)."
  },
  {
   "property": "C169",
   "status": "proved",
   "theorems": [
    "Verif.Euler.C169_area",
    "Verif.Euler.C169_gas_law",
    "Verif.Euler.C169_flux",
    "Verif.Euler.C169_source"
   ],
   "note": "The area of a circle up to 10^-15 of the squared diameter, since pi has 16 digits. The slope of the polynomial at the turbulent border is that of C33."
  },
  {
   "property": "C170",
   "status": "partial",
   "theorems": [
    "Verif.Command.C170_schema",
    "Verif.Command.C170_partial",
    "Verif.Command.C170_layout",
    "Verif.Command.C170_false",
    "Verif.Command.C170_accepted_false"
   ],
   "note": "Proved: exactly which files the schema accepts, and that settings of accepted files are used as written (step not zero, whole numbers in range, settings of controls not covered by the schema). False in both directions for the rest: C170_false gives a working problem that the schema rejects, C170_accepted_false a file it accepts with which no run gets through reading; the schema has an older layout with subproblems."
  },
  {
   "property": "C171",
   "status": "partial",
   "theorems": [
    "Verif.Box.C171_partial",
    "Verif.Box.C171_left_partial",
    "Verif.Box.C171_short_partial",
    "Verif.Box.C171_false"
   ],
   "note": "Proved if delivery pressure, momentum and the friction over the whole pipe (bounded by that at the delivery) are together below the largest pressure of the gas law, with uniqueness by C165. False in general: C171_false gives a pipe of one long cell without any stationary state, as the supply would need a pressure beyond the gas law."
  },
  {
   "property": "C172",
   "status": "proved",
   "theorems": [
    "Verif.Box.C172"
   ],
   "note": "The friction factor times the square of the Reynolds number is strictly increasing on each of the three regimes and the seams are continuous, although the slope at the turbulent seam is not the derivative of the formula (C33)."
  },
  {
   "property": "C173",
   "status": "proved",
   "theorems": [
    "Verif.Box.C173"
   ],
   "note": "Cell by cell from the delivery upwards; uses C172."
  },
  {
   "property": "C174",
   "status": "proved",
   "theorems": [
    "Verif.Box.C174"
   ],
   "note": "From C173, its mirror image and the state at rest."
  },
  {
   "property": "C175",
   "status": "proved",
   "theorems": [
    "Verif.Network.C175_pressures",
    "Verif.Network.C175",
    "Verif.Network.C175_residual"
   ],
   "note": "The set of nodes where one state has more pressure exports strictly more gas (C174), but its nodes have the same balance in both states. Generalises C167 (no circles, one pressure node). That the condition on circles of short edges is needed is shown by Verif.Network.C175_short_circles_false."
  },
  {
   "property": "C176",
   "status": "proved",
   "theorems": [
    "Verif.Network.C176",
    "Verif.Network.C176_residual"
   ],
   "note": "Comparison of stationary states; example: a sink that closes, with a strictly larger pressure afterwards. Controls are the same in both states."
  },
  {
   "property": "C177",
   "status": "proved",
   "theorems": [
    "Verif.Network.C177",
    "Verif.Network.C177_residual",
    "Verif.Network.C177_singular",
    "Verif.Network.C177_unique_iff"
   ],
   "note": "All component types, also with power grids. The matrix is that of exact real entries; what the factorisation of Eigen does with it is not modelled."
  },
  {
   "property": "C178",
   "status": "proved",
   "theorems": [
    "Verif.Network.C178",
    "Verif.Network.C178_residual",
    "Verif.Network.C178_singular"
   ],
   "note": "stated for the laws of a time step (C72), for the residual of the program and for its matrix"
  },
  {
   "property": "C179",
   "status": "proved",
   "theorems": [
    "Verif.Network.C179",
    "Verif.Network.C179_residual",
    "Verif.Network.C179_singular"
   ],
   "note": "stated for the laws of a time step (C72), for the residual of the program and for its matrix"
  },
  {
   "property": "C180",
   "status": "proved",
   "theorems": [
    "Verif.Network.C180",
    "Verif.Network.C180_regular",
    "Verif.Network.C180_one_step",
    "Verif.Network.C180_solver",
    "Verif.Network.C180_simulation"
   ],
   "note": "Over the real numbers and an exact factorization, as everywhere in the model; the boundary values must exist at the new times."
  },
  {
   "property": "C181",
   "status": "proved",
   "theorems": [
    "Verif.Network.C181",
    "Verif.Read.C181_constraints",
    "Verif.Read.C181_total",
    "Verif.Read.C181_global"
   ],
   "note": "Real numbers instead of doubles. Evaluations and optima assume a linear solver that solves every regular system; optima assume tolerance 0, so that simulations return exact solutions. Constraint sinks must be joined to at least one gas edge."
  },
  {
   "property": "C182",
   "status": "partial",
   "theorems": [
    "Verif.OptState.C182_partial",
    "Verif.Network.C182_network_partial",
    "Verif.OptState.C182_asserts_false",
    "Verif.OptState.C182_exception_false",
    "Verif.OptState.C182_states_false"
   ],
   "note": "Proved for histories without exceptions, simulated states and builds without assertions; for networks the matrices are the derivatives of the residual (with the limits of C69). False otherwise: after a call that threw, derivatives of that call are returned for the older controls; states are not compared beyond the initial one; with assertions the first call with three or more times always ends the program. The class is commented out in its CMakeLists.txt."
  },
  {
   "property": "C183",
   "status": "proved",
   "theorems": [
    "Verif.Factory.C183",
    "Verif.Factory.C183_once",
    "Verif.Factory.C183_rejected"
   ],
   "note": "For networks from buildNet; edges are positions in the vector of edges."
  },
  {
   "property": "C184",
   "status": "partial",
   "theorems": [
    "Verif.Command.C184_partial",
    "Verif.Command.C184_undefined",
    "Verif.Command.C184_solution",
    "Verif.Command.C184_false"
   ],
   "note": "False of the code: without a solution the vector of controls is empty, and if there are constraints its entries are used all the same, which is undefined (C184_undefined, C184_false). Proved: nothing is written on the regular way, without constraints there is an exception, and with a solution it is this one that is written."
  },
  {
   "property": "C185",
   "status": "proved",
   "theorems": [
    "Verif.Files.Epoch.C185_unique",
    "Verif.Files.Epoch.C185_extension",
    "Verif.Files.Epoch.C185_file",
    "Verif.Files.Epoch.C185_fails",
    "Verif.Files.Epoch.C185_order"
   ],
   "note": "One process; several at the same time are covered by the theorems on exclusive creation (Files/Unique.lean). That create_directory itself fails is left out. The order of names is the order of times for times of thirteen digits, that is from 2001 to 2286."
  }
 ]
}
