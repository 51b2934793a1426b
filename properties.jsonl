{"id": "C01", "title": "Interpolation is exact at its nodes", "statement": "Evaluating an interpolating vector (at least two strictly increasing interpolation points) at one of its interpolation points returns exactly the vector stored for that point.", "quantifier": "every grid, every inner length, every stored data, every node index", "why_tests_cant": "tests sample a few grids; the three-way branch on the time (at/behind the end, at/before the start, interior) must agree at every node of every grid", "anchors": ["src/Auxillary/InterpolatingVector/InterpolatingVector.cpp:InterpolatingVector_Base::operator()"]}
{"id": "C02", "title": "Interpolation never overshoots", "statement": "Evaluating at a time between the first and last interpolation point returns, in each component, the affine interpolant of the two neighbouring stored values, hence a value between them.", "quantifier": "every grid, every data, every time in the closed range", "why_tests_cant": "ranges over a continuum of times and all grids", "anchors": ["src/Auxillary/InterpolatingVector/InterpolatingVector.cpp:InterpolatingVector_Base::operator()"]}
{"id": "C03", "title": "Evaluation range of interpolation", "statement": "Evaluation throws if and only if the time lies more than 1e-10 outside the closed range of the grid; no time leads to an out-of-bounds access as long as the grid has at least one point.", "quantifier": "every grid with at least one point and every time", "why_tests_cant": "boundary and tolerance behaviour for every time; memory safety is not observable in passing tests", "anchors": ["src/Auxillary/InterpolatingVector/InterpolatingVector.cpp:InterpolatingVector_Base::operator()"]}
{"id": "C04", "title": "Timestep writes behave like an array of vectors", "statement": "After any sequence of writes to time steps, reading step i returns the last vector written to step i (or the contents before the first write); writes to one step never change another one, and reads and writes with an index outside the grid are rejected and change nothing (inner length at least one).", "quantifier": "every sequence of reads and writes of any length, every size and inner length", "why_tests_cant": "frame property over all histories", "anchors": ["src/Auxillary/InterpolatingVector/InterpolatingVector.cpp:mut_timestep", "src/Auxillary/InterpolatingVector/InterpolatingVector.cpp:vector_at_index", "src/Auxillary/InterpolatingVector/InterpolatingVector.cpp:set_values_in_bulk"]}
{"id": "C05", "title": "Equidistant grids hit both ends and respect the wished step", "statement": "A grid built from start, wished step and end starts exactly at start, ends exactly at end, is strictly increasing, equidistant, its step is positive and at most the wished step, and no coarser equidistant grid respects the wished step.", "quantifier": "every start < end and every wished step > 0", "why_tests_cant": "continuum of inputs, rounding up of the number of steps", "anchors": ["src/Auxillary/InterpolatingVector/InterpolatingVector.cpp:make_from_start_delta_end", "src/Auxillary/InterpolatingVector/InterpolatingVector.cpp:make_from_start_number_end", "src/Auxillary/InterpolatingVector/InterpolatingVector.cpp:make_from_start_delta_number", "src/Auxillary/InterpolatingVector/InterpolatingVector.cpp:set_equidistant_interpolation_points"]}
{"id": "C06", "title": "Unsorted interpolation points are rejected", "statement": "Constructing an interpolating vector from a list of points that is not sorted throws. (False for the constructor taking std::vector: it checks the moved-from vector.)", "quantifier": "every list of points", "why_tests_cant": "a test only catches the constructor it happens to call", "anchors": ["src/Auxillary/InterpolatingVector/InterpolatingVector.cpp:InterpolatingVector_Base::InterpolatingVector_Base"]}
{"id": "C07", "title": "Equality and assignment of interpolating vectors", "statement": "Two interpolating vectors compare equal iff they have the same inner length, the same points and the same values; assigning to a base reference of different structure throws and leaves the target unchanged; after a successful assignment both compare equal.", "quantifier": "every pair of vectors", "why_tests_cant": "all shapes, including different sizes and empty vectors", "anchors": ["src/Auxillary/InterpolatingVector/InterpolatingVector.cpp:operator==", "src/Auxillary/InterpolatingVector/InterpolatingVector.cpp:have_same_structure", "src/Auxillary/InterpolatingVector/InterpolatingVector.cpp:assignment_helper", "src/Auxillary/InterpolatingVector/InterpolatingVector.cpp:InterpolatingVector_Base::operator="]}
{"id": "C08", "title": "Time weights used in the adjoint agree with interpolation", "statement": "For every state time inside the control grid, the pair (index, lambda) used to distribute derivatives satisfies: lambda*v[index]+(1-lambda)*v[index-1] (only v[index] when lambda is 1) equals the interpolated control at that time; lambda lies in (0,1] and the index is valid.", "quantifier": "every control grid, every control values, every time in range", "why_tests_cant": "two independently written searches must agree on a continuum of times", "anchors": ["src/Optimization_helpers/Optimization_helpers.cpp:compute_index_lambda", "src/Auxillary/InterpolatingVector/InterpolatingVector.cpp:operator()"]}
{"id": "C09", "title": "Jacobian sparsity indices are well formed", "statement": "The row and column indices handed to the NLP solver are all inside the matrix, pairwise distinct, and exactly as many as announced by the nonzero count.", "quantifier": "every pair of time grids and every block size", "why_tests_cant": "solver preconditions over all grid shapes", "anchors": ["src/IpoptWrapper/ConstraintJacobian.cpp:make_data", "src/IpoptWrapper/ConstraintJacobian.cpp:supply_indices", "src/IpoptWrapper/ConstraintJacobian.cpp:nonZeros"]}
{"id": "C10", "title": "Jacobian value array and index array agree", "statement": "The k-th stored value is the matrix entry at the k-th supplied (row, column) pair, and all entries at positions not listed are zero, when the matrix is expanded.", "quantifier": "every grid shape, every block size, every stored values", "why_tests_cant": "order agreement between two loops over all shapes", "anchors": ["src/IpoptWrapper/ConstraintJacobian.cpp:supply_indices", "src/IpoptWrapper/ConstraintJacobian.cpp:get_column_block", "src/IpoptWrapper/ConstraintJacobian.cpp:whole_matrix"]}
{"id": "C11", "title": "Jacobian sparsity contains every causal dependency", "statement": "The block for constraint time c and control index j is stored iff j = 0 or the control time before j is smaller than c; a block that is not stored cannot be influenced because the interpolated controls up to time c do not depend on control j.", "quantifier": "every pair of strictly increasing grids", "why_tests_cant": "a missing entry silently yields a wrong Jacobian for some grid", "anchors": ["src/IpoptWrapper/ConstraintJacobian.cpp:make_data"]}
{"id": "C12", "title": "Quadrature weights of the objective", "statement": "The weights of the time integral are those of the trapezoidal rule: non-negative, they sum up to the length of the time interval and integrate every affine function exactly.", "quantifier": "every strictly increasing time grid with at least two points", "why_tests_cant": "all grid lengths", "anchors": ["src/IpoptWrapper/ImplicitOptimizer.cpp:make_objective_function_coefficients"]}
{"id": "C13", "title": "Evaluations do not depend on call history", "statement": "If the caller announces each new control vector (new_x) as Ipopt does, every objective, gradient, constraint or Jacobian evaluation returns what a freshly constructed optimizer would return for the same controls.", "quantifier": "every sequence of evaluation calls obeying the contract", "why_tests_cant": "hidden flags and caches range over all histories", "anchors": ["src/IpoptWrapper/ImplicitOptimizer.cpp:new_x", "src/IpoptWrapper/ImplicitOptimizer.cpp:evaluate_objective", "src/IpoptWrapper/ImplicitOptimizer.cpp:evaluate_constraints", "src/IpoptWrapper/ImplicitOptimizer.cpp:evaluate_objective_gradient", "src/IpoptWrapper/ImplicitOptimizer.cpp:evaluate_constraint_jacobian", "src/IpoptWrapper/Wrapper.cpp"]}
{"id": "C14", "title": "A failed evaluation reports failure and does no harm later", "statement": "If the simulation fails for a control vector, every evaluation at it reports false; later evaluations at other control vectors are unaffected.", "quantifier": "every history of successes and failures", "why_tests_cant": "histories of failures are not enumerable by tests", "anchors": ["src/IpoptWrapper/ImplicitOptimizer.cpp:evaluate_cost", "src/Optimization_helpers/ControlStateCache.cpp:check_and_supply_states"]}
{"id": "C15", "title": "Objective gradient is the exact discrete gradient", "statement": "The gradient computed by the backward (adjoint) sweep equals the derivative of the discretised objective with respect to all control values, where the states are the implicit function of the controls.", "quantifier": "every number of steps, states, controls, all derivative matrices with invertible dE/dnew, every control grid", "why_tests_cant": "finite differences can only test isolated problems and only approximately", "anchors": ["src/IpoptWrapper/ImplicitOptimizer.cpp:compute_derivatives"]}
{"id": "C16", "title": "Constraint Jacobian is the exact discrete Jacobian", "statement": "The constraint Jacobian computed in the same sweep equals the derivative of all constraints with respect to all control values.", "quantifier": "as for the gradient, and every set of constraint times accepted by the constructor", "why_tests_cant": "as for the gradient", "anchors": ["src/IpoptWrapper/ImplicitOptimizer.cpp:compute_derivatives", "src/IpoptWrapper/ConstraintJacobian.cpp"]}
{"id": "C17", "title": "Constraint times must be state times", "statement": "Construction of the optimizer succeeds only if every constraint time is one of the state times after the initial time, and for sorted times the check accepts exactly these.", "quantifier": "every pair of time grids", "why_tests_cant": "two-pointer loop over arbitrary grids", "anchors": ["src/IpoptWrapper/ImplicitOptimizer.cpp:ImplicitOptimizer::ImplicitOptimizer"]}
{"id": "C18", "title": "Derivative sweep accesses constraint times in bounds only", "statement": "The backward sweep never reads a constraint time outside the list. (False: whenever the first constraint time is later than the first simulated step, index -1 is read.)", "quantifier": "every accepted pair of grids", "why_tests_cant": "out-of-bounds read happens to compare unequal most of the time, so tests pass", "anchors": ["src/IpoptWrapper/ImplicitOptimizer.cpp:compute_derivatives"]}
{"id": "C19", "title": "Final cost and penalty belong to the returned controls", "statement": "The cost and penalty stored at the end of the optimisation are those of the final control vector. (False if the solver's last evaluation was at another point.)", "quantifier": "every history of solver calls", "why_tests_cant": "depends on the call order of the external solver", "anchors": ["src/IpoptWrapper/Wrapper.cpp:finalize_solution", "src/IpoptWrapper/ImplicitOptimizer.cpp:evaluate_cost"]}
{"id": "C20", "title": "Selection of constraint times", "statement": "Choosing every n-th step as constraint time yields strictly increasing state times after the initial one and always includes the final time. (Inclusion of the final time is false e.g. for 6 steps and n = 3.)", "quantifier": "every number of steps and every n", "why_tests_cant": "arithmetical corner cases depend on divisibility", "anchors": ["src/Grazer/commands.cpp:run"]}
{"id": "C21", "title": "State cache returns the simulation of the asked controls", "statement": "A query of the state cache returns exactly the states a fresh simulation with these controls and initial state yields, or failure iff that simulation fails, whatever was asked before.", "quantifier": "every sequence of queries", "why_tests_cant": "cache histories are unbounded", "anchors": ["src/Optimization_helpers/ControlStateCache.cpp:check_and_supply_states", "src/Optimization_helpers/ControlStateCache.cpp:refresh_cache"]}
{"id": "C22", "title": "A successful nonlinear solve meets the tolerance", "statement": "If the Newton solver reports success then the residual norm of the returned state is at most the tolerance. (False if a residual is NaN or the iteration limit is negative.)", "quantifier": "every equation system, starting point and parameter setting", "why_tests_cant": "all residual sequences, including NaN", "anchors": ["src/Newtonsolver/Newtonsolver.cpp:solve"]}
{"id": "C23", "title": "Newton iterations", "statement": "The solver uses at most the maximal number of iterations; every accepted step is a Newton step damped by a power of one half that reduces the residual measured through the linear solver of that step by at least the factor 1 - damping/2 (the plain residual norm may grow); failure is reported only after the maximal number of iterations with a residual above the tolerance; the damping loop ends whenever the Jacobian is exact, and gives up with an exception only at a candidate where this measure is below 1e-12 without being reduced enough.", "quantifier": "every equation system and setting", "why_tests_cant": "Ranges over all nonlinear systems and starting points.", "anchors": ["src/Newtonsolver/Newtonsolver.cpp:solve"]}
{"id": "C24", "title": "Time evolution solves every step or throws", "statement": "If a simulation returns, the first stored state is the initial state and each later one was reported solved by the Newton solver for its own time interval, its own controls and its predecessor state; if one step cannot be solved within the retries, the simulation throws.", "quantifier": "every number of steps and every behaviour of the solver", "why_tests_cant": "all solver behaviours", "anchors": ["src/Model/Problemlayer/Timeevolver.cpp:simulate", "src/Model/Problemlayer/Timeevolver.cpp:make_one_step"]}
{"id": "C25", "title": "Bounded number of retries", "statement": "One time step makes at most 2*retries+2 attempts (retries+2 if full Jacobians are used from the start), and each attempt starts from the same initial guess.", "quantifier": "every retry setting and every solver behaviour", "why_tests_cant": "all failure patterns", "anchors": ["src/Model/Problemlayer/Timeevolver.cpp:make_one_step"]}
{"id": "C26", "title": "Time grid of a simulation", "statement": "The time grid starts at the start time, ends at the end time, and its step is positive and at most the wished step.", "quantifier": "every start, end and wished step", "why_tests_cant": "continuum of inputs", "anchors": ["src/Auxillary/Timedata/Timedata.cpp:Timedata"]}
{"id": "C27", "title": "Matrix assembly is independent of the handler", "statement": "Filling a matrix through triplets and filling it through coefficient references (with the same pattern) give the same matrix: each entry is the sum of all contributions to it, in whatever order they were added; the transposed variants give the transposed matrix.", "quantifier": "every sequence of contributions", "why_tests_cant": "all orders and duplicates", "anchors": ["src/Auxillary/Matrixhandler/Matrixhandler.cpp"]}
{"id": "C28", "title": "Smoothed absolute value", "statement": "The smoothed absolute value is continuously differentiable with the derivative the code supplies, is even, and deviates from |x| only within the smoothing radius and there by at most the radius.", "quantifier": "every real argument", "why_tests_cant": "continuum; the seam must match exactly", "anchors": ["src/Auxillary/Mathfunctions/Mathfunctions.cpp:smooth_abs", "src/Auxillary/Mathfunctions/Mathfunctions.cpp:dsmooth_abs_dx"]}
{"id": "C29", "title": "Box scheme derivatives", "statement": "The four derivative functions of the implicit box scheme are the partial derivatives of its residual.", "quantifier": "every differentiable balance law, every state, step sizes", "why_tests_cant": "all balance laws", "anchors": ["src/Model/Scheme/include/Implicitboxscheme.hpp"]}
{"id": "C30", "title": "Box scheme conserves", "statement": "Summing the box scheme residual over the cells of a pipe telescopes: the change of the (trapezoidal) total equals the time step times the difference of the end fluxes plus the integrated sources; with zero source nothing is lost or created inside.", "quantifier": "every number of cells and states", "why_tests_cant": "unbounded number of cells", "anchors": ["src/Model/Scheme/include/Implicitboxscheme.hpp", "src/Model/Networkproblem/Gas/Pipe.cpp:evaluate"]}
{"id": "C31", "title": "Pressure and density conversion", "statement": "Converting density to pressure and back (and pressure to density and back) returns the start value; the supplied derivative of pressure is its derivative; conversion is strictly increasing.", "quantifier": "every density or pressure in the admissible range", "why_tests_cant": "continuum", "anchors": ["src/Model/Balancelaw/Isothermaleulerequation.cpp:p", "src/Model/Balancelaw/Isothermaleulerequation.cpp:rho", "src/Model/Balancelaw/Isothermaleulerequation.cpp:dp_drho"]}
{"id": "C32", "title": "Friction factor has no kinks at its seams", "statement": "The friction factor is continuous with continuous derivative at the laminar/transition and transition/turbulent Reynolds numbers, given the derivative the code uses at the turbulent border.", "quantifier": "every pipe diameter and roughness", "why_tests_cant": "continuum; exact seam conditions", "anchors": ["src/Model/Balancelaw/Isothermaleulerequation.cpp:get_coefficients", "src/Model/Balancelaw/Isothermaleulerequation.cpp:lambda_non_laminar"]}
{"id": "C33", "title": "Derivative of the turbulent friction factor", "statement": "The derivative of the Swamee-Jain friction factor supplied by the code is the derivative of the function. (False: a factor is multiplied instead of divided.)", "quantifier": "every Reynolds number and pipe", "why_tests_cant": "the error is small in Newton iterations and hidden by their robustness", "anchors": ["src/Model/Balancelaw/Isothermaleulerequation.cpp:dSwamee_Jain_dRe"]}
{"id": "C34", "title": "Flux and source derivatives", "statement": "The Jacobian matrices of flux and source terms are the derivatives of flux and source (source: given a correct derivative of the friction factor).", "quantifier": "every admissible state", "why_tests_cant": "continuum", "anchors": ["src/Model/Balancelaw/Isothermaleulerequation.cpp:flux", "src/Model/Balancelaw/Isothermaleulerequation.cpp:dflux", "src/Model/Balancelaw/Isothermaleulerequation.cpp:source", "src/Model/Balancelaw/Isothermaleulerequation.cpp:dsource"]}
{"id": "C35", "title": "Gas node residual means equal pressures and Kirchhoff's law", "statement": "The residual entries written by a flow node vanish iff all attached edge ends have the same pressure and the signed flows sum up to the prescribed flow.", "quantifier": "every number of attached edges, every state", "why_tests_cant": "unbounded degree", "anchors": ["src/Model/Networkproblem/Gas/Gasnode.cpp:evaluate_flow_node_balance"]}
{"id": "C36", "title": "Gas node derivative", "statement": "The derivative entries written by a flow node are exactly the derivative of its residual entries with respect to all states.", "quantifier": "every degree and every mixture of attached edge types", "why_tests_cant": "unbounded degree", "anchors": ["src/Model/Networkproblem/Gas/Gasnode.cpp:evaluate_flow_node_derivative"]}
{"id": "C37", "title": "Valves, compressors and short pipes", "statement": "The equations of short pipe, control valve and compressor station vanish iff flow is the same at both ends and the pressures differ by zero, minus the control, plus the control respectively; their derivatives with respect to states and controls are exact.", "quantifier": "every state and control", "why_tests_cant": "sign conventions must hold for all values", "anchors": ["src/Model/Networkproblem/Gas/Shortpipe.cpp", "src/Model/Networkproblem/Gas/Controlvalve.cpp", "src/Model/Networkproblem/Gas/Compressorstation.cpp"]}
{"id": "C38", "title": "Pipe discretisation", "statement": "A pipe of given length and wished cell width gets at least two points, cells that add up to the length and are no wider than wished, and its interior equations plus the two end rows cover its index range exactly once.", "quantifier": "every positive length and wished width", "why_tests_cant": "all sizes", "anchors": ["src/Model/Networkproblem/Gas/Pipe.cpp:Pipe", "src/Model/Networkproblem/Gas/Pipe.cpp:evaluate"]}
{"id": "C39", "title": "As many equations as unknowns, each row written exactly once", "statement": "In an admissible network every row of the residual is written by exactly one component, so no row is left unset and none is overwritten.", "quantifier": "every network", "why_tests_cant": "all network topologies", "anchors": ["src/Model/Networkproblem/Networkproblem.cpp:evaluate", "src/Model/Networkproblem/Gas/Gasnode.cpp", "src/Model/Networkproblem/Gas/Gasedge.cpp", "src/Model/Networkproblem/Power"]}
{"id": "C40", "title": "State, control and constraint indices are a partition", "statement": "The index ranges assigned to components are pairwise disjoint, contiguous, have the requested lengths and cover exactly the whole vector.", "quantifier": "every list of components with non-negative needs", "why_tests_cant": "unbounded number of components", "anchors": ["src/Model/Networkproblem/Networkproblem.cpp:set_state_indices", "src/Model/Networkproblem/Networkproblem.cpp:set_control_indices", "src/Model/Networkproblem/Networkproblem.cpp:set_constraint_indices"]}
{"id": "C41", "title": "Power flow derivatives", "statement": "The derivatives of active and reactive power at a bus supplied by the code are the partial derivatives with respect to voltages and angles of the bus itself and of every neighbour.", "quantifier": "every number of attached lines and every state", "why_tests_cant": "unbounded degree, continuum", "anchors": ["src/Model/Networkproblem/Power/Powernode.cpp"]}
{"id": "C42", "title": "Power balance in the grid", "statement": "Summed over all buses, active power equals the losses: susceptances cancel, so a grid without conductances neither creates nor consumes active power.", "quantifier": "every grid and state", "why_tests_cant": "all topologies", "anchors": ["src/Model/Networkproblem/Power/Powernode.cpp:P"]}
{"id": "C43", "title": "Gas to power conversion", "statement": "The power generated from gas flow is continuously differentiable with the supplied derivative, equals efficiency times flow outside the smoothing interval and is strictly increasing.", "quantifier": "every flow and every pair of efficiencies", "why_tests_cant": "continuum and seams", "anchors": ["src/Model/Networkproblem/Gaspowerconnection/Gaspowerconnection.cpp:generated_power"]}
{"id": "C44", "title": "Costs and their gradients use the same weights", "statement": "The derivative of the network cost with respect to states and controls is the derivative of the network cost the optimizer evaluates. (Only if the weight of the network itself is 1.)", "quantifier": "every network, weight, state and control", "why_tests_cant": "the default weight hides the inconsistency", "anchors": ["src/Model/Networkproblem/Networkproblem.cpp:evaluate_cost", "src/Model/Networkproblem/Networkproblem.cpp:d_evaluate_cost_d_control", "src/Model/Networkproblem/Gas/Compressorstation.cpp"]}
{"id": "C45", "title": "Component lists are sorted and duplicates rejected", "statement": "After loading, every component list is sorted by id; loading throws iff some id appears twice or is missing.", "quantifier": "every json input", "why_tests_cant": "unbounded lists", "anchors": ["src/Auxillary/ComponentJsonHelpers/ComponentJsonHelpers.cpp"]}
{"id": "C46", "title": "Every component receives its boundary data", "statement": "After merging boundary (or control) data into the topology, every component of the affected types has its entry, and only its own; otherwise the merge throws. (False: components behind the last boundary id silently get nothing.)", "quantifier": "every pair of sorted lists", "why_tests_cant": "two-pointer merge over arbitrary id sets", "anchors": ["src/Model/Netfactory/Netfactory.cpp:insert_second_json_in_topology_json"]}
{"id": "C47", "title": "Missing initial data are detected", "statement": "Loading initial values throws iff some component of the topology has no entry.", "quantifier": "every network and json input", "why_tests_cant": "arbitrary id sets", "anchors": ["src/Model/Networkproblem/Networkproblem.cpp:check_components_in_json"]}
{"id": "C48", "title": "Network graph consistency", "statement": "In a constructed network each edge is in the edge list of exactly its start node and its end node, node and edge ids are unique, and edges with identical ends are rejected.", "quantifier": "every list of nodes and edges", "why_tests_cant": "all topologies", "anchors": ["src/Model/Network/Net.cpp", "src/Model/Network/Edge.cpp", "src/Model/Network/Node.cpp"]}
{"id": "C49", "title": "The factory builds each listed component exactly once", "statement": "Building a network creates exactly one component for each json entry and throws for unknown component types.", "quantifier": "every json topology", "why_tests_cant": "unbounded lists", "anchors": ["src/Model/Netfactory/Netfactory.cpp:build_node_vector", "src/Model/Netfactory/Netfactory.cpp:build_edge_vector"]}
{"id": "C50", "title": "Defaults never overwrite user data", "statement": "Applying schema defaults keeps every value present in the user's json, adds exactly the missing defaulted keys, and makes the result independent of repeated application for flat schemas. (Not idempotent for nested defaults.)", "quantifier": "every json value and schema", "why_tests_cant": "recursive data of any depth", "anchors": ["src/Auxillary/json_schema/schema_validation.cpp:apply_defaults"]}
{"id": "C51", "title": "Defaulted keys are not required", "statement": "After removing defaults from required, no property with a default is listed as required, at any depth, and other required keys stay.", "quantifier": "every schema", "why_tests_cant": "recursive data of any depth", "anchors": ["src/Auxillary/json_schema/make_schema.cpp:remove_defaults_from_required"]}
{"id": "C52", "title": "Unit conversion", "statement": "A unit string (an optional number and a space, an optional SI prefix, a unit) is accepted and means the value times the number times the prefix, converted to SI by the affine map of the unit; every other string is rejected with an exception; no string has two meanings; and the conversion is strictly increasing unless the leading number is zero.", "quantifier": "every string, every value, all ten measures", "why_tests_cant": "all strings", "anchors": ["src/Auxillary/unit_conversion/unit_conversion.cpp:parse_to_si", "src/Auxillary/unit_conversion/unit_conversion.cpp:parse_prefix", "src/Auxillary/unit_conversion/unit_conversion.cpp:parse_unit"]}
{"id": "C53", "title": "Overwriting a json file is crash safe", "statement": "At every crash point during overwriting a file, either the file or its backup holds the complete old content or the file holds the complete new content. (False for a write that fails silently.)", "quantifier": "every crash point and every i/o failure", "why_tests_cant": "crash points cannot be enumerated by unit tests", "anchors": ["src/Auxillary/aux_json/Aux_json.cpp:overwrite_json"]}
{"id": "C54", "title": "Concurrent runs get distinct output directories", "statement": "Any number of concurrently running processes that obtain a unique output directory obtain pairwise distinct directories, none of which existed before.", "quantifier": "every interleaving of every number of processes", "why_tests_cant": "all schedules", "anchors": ["src/Auxillary/Input_Output/Input_output.cpp:unique_output_directory"]}
{"id": "C55", "title": "Output files are never overwritten", "statement": "Creating a new output file never truncates an existing one, and gives up after a fixed number of attempts by throwing.", "quantifier": "every file system content and every schedule", "why_tests_cant": "all schedules", "anchors": ["src/Auxillary/Input_Output/Input_output.cpp:create_new_output_file"]}
{"id": "C56", "title": "Output paths stay inside the root", "statement": "The check whether a path lies inside the root directory accepts exactly paths with the root as prefix. (Undefined behaviour if the path is a proper prefix of the root.)", "quantifier": "every pair of normalised paths", "why_tests_cant": "all paths", "anchors": ["src/Auxillary/Input_Output/Input_output.cpp:absolute_file_path_in_root"]}
{"id": "C57", "title": "Truncated normal samples respect their bounds", "statement": "A returned sample lies in the closed interval between the bounds; otherwise an exception is thrown after a bounded number of draws.", "quantifier": "every random sequence and all bounds", "why_tests_cant": "rare random events", "anchors": ["src/Auxillary/Stochastics/Normaldistribution.cpp:get_sample"]}
{"id": "C58", "title": "Sub-step count of the stochastic process is stable", "statement": "The computed number of sub-steps n satisfies theta*dt/n below the stability bound.", "quantifier": "every theta, step size and bound", "why_tests_cant": "continuum", "anchors": ["src/Auxillary/Stochastics/Stochastic.cpp:compute_stable_number_of_oup_steps"]}
{"id": "C59", "title": "Stochastic process stays within its cut-off", "statement": "After at least one sub-step the returned value lies between mu*(1-c) and mu*(1+c) (in the order given by the sign of mu) for every noise sequence.", "quantifier": "every noise sequence, every number of sub-steps", "why_tests_cant": "rare random events", "anchors": ["src/Auxillary/Stochastics/include/Stochastic.hpp:euler_maruyama_oup"]}
{"id": "C60", "title": "Reported stochastic demand is the one used", "statement": "The power demand written to the output for a time is the one that was used in the simulation of that time. (False: all output is written after the simulation, so the last demand is reported for all times.)", "quantifier": "every noise sequence and number of steps", "why_tests_cant": "tests with deterministic demand cannot see it", "anchors": ["src/Model/Networkproblem/Power/StochasticPQnode.cpp:json_save", "src/Grazer/commands.cpp:run"]}
{"id": "C61", "title": "Running mean and deviation", "statement": "Processing runs one at a time yields exactly the arithmetic mean and the sample standard deviation of all processed runs.", "quantifier": "every number of runs and all data", "why_tests_cant": "unbounded histories", "anchors": ["helper_functions/get_mean_sigma.cpp"]}
{"id": "C62", "title": "Quantile extraction stays in bounds", "statement": "Computing quantiles accesses existing samples only. (False for fewer than eleven samples.)", "quantifier": "every number of samples", "why_tests_cant": "tests with enough samples pass", "anchors": ["helper_functions/get_quantiles.cpp:make_quantiles"]}
{"id": "C63", "title": "Extraction of a new initial condition picks the documented step", "statement": "The step extracted is the first one not before the wanted time (last one if there is none). (False: the code steps back one entry.)", "quantifier": "every time grid and wanted time", "why_tests_cant": "off by one depends on the position", "anchors": ["helper_functions/extract_new_initial_condition.cpp"]}
{"id": "C64", "title": "Initial values land in the right state entries", "statement": "Setting initial values of a component writes the interpolated values of each grid point to the component's own segment and nothing else, or throws if they do not fit.", "quantifier": "every component and state vector", "why_tests_cant": "frame property for all sizes", "anchors": ["src/Model/Networkproblem/Componentclasses/SimpleStatecomponent.cpp", "src/Model/Networkproblem/Componentclasses/SimpleControlcomponent.cpp"]}
{"id": "C65", "title": "Sinks are negative sources", "statement": "A sink with demand q has exactly the residual and derivative of a source with flow -q; reverting is an involution.", "quantifier": "every boundary data and state", "why_tests_cant": "sign convention for all data", "anchors": ["src/Model/Networkproblem/Gas/Flowboundarynode.cpp:revert_boundary_conditions"]}
{"id": "C66", "title": "Reading interpolation data from json", "statement": "If all value arrays have the same length, the vector read from json has the listed times as points and the listed arrays as values, in the listed order.", "quantifier": "every nonempty list of entries", "why_tests_cant": "unbounded lists", "anchors": ["src/Auxillary/InterpolatingVector/InterpolatingVector.cpp:construct_from_json"]}
{"id": "C67", "title": "Resampling an interpolated vector", "statement": "interpolate_from keeps the own points and stores at each the value of the other vector's interpolation there; it throws exactly if one of the own points lies outside the other vector's range by more than the tolerance.", "quantifier": "all vectors of equal inner length with strictly increasing source points", "why_tests_cant": "Ranges over all grids and values; every relative position of two grids would have to be tried.", "anchors": ["src/Auxillary/InterpolatingVector/InterpolatingVector.cpp:interpolate_from"]}
{"id": "C68", "title": "Control times cover the simulated interval", "statement": "For every problem file whose control settings are accepted, the control times are equidistant and strictly increasing, the first is the start and the last the end of the simulation, and the step is at most the wished one (or their number is the wished one); so controls can be evaluated at every simulation time. Conflicting or empty control settings, non-positive steps and non-positive numbers are rejected; without control settings the control times are the simulation times.", "quantifier": "all start and end times, all wished steps and all control settings", "why_tests_cant": "the settings are arbitrary real numbers and integers; tests use a few", "anchors": ["src/Grazer/helpers.cpp:setup_controls", "src/Auxillary/InterpolatingVector/InterpolatingVector.cpp:make_from_start_delta_end,make_from_start_number_end"]}
{"id": "C69", "title": "The Jacobian of a whole network is the derivative of its residual", "statement": "For every network and every state, the matrices with respect to last state, new state and control handed to Newton's method and to the adjoint sweep are the derivatives of the residual vector. (False in turbulent flow because of C33.)", "quantifier": "every network, state, control and time", "why_tests_cant": "It is a statement about all networks and all states at once; tests compare single components at single states with difference quotients.", "anchors": ["src/Model/Networkproblem/Networkproblem.cpp:d_evaluate_d_new_state", "src/Model/Networkproblem/Networkproblem.cpp:d_evaluate_d_last_state", "src/Model/Networkproblem/Networkproblem.cpp:d_evaluate_d_control"]}
{"id": "C70", "title": "The sparsity pattern of a network's Jacobian never changes", "statement": "The positions of the derivative entries do not depend on times, states or controls and lie inside the matrix, so that the matrix and its symbolic factorization can be reused in all Newton steps of all time steps.", "quantifier": "every network, any two times, states and controls", "why_tests_cant": "The pattern must be the same for all pairs of states; a test sees finitely many.", "anchors": ["src/Model/Networkproblem/Networkproblem.cpp:d_evaluate_d_new_state", "src/Auxillary/Matrixhandler/Matrixhandler.cpp", "src/Model/Problemlayer/Timeevolver.cpp"]}
{"id": "C71", "title": "No network without boundary data", "statement": "Whenever a network is built, every component whose type needs boundary values, and which doesn't bring them along in the topology, was constructed with the entry of the boundary json that has its id and type; if such an entry is missing, an exception is thrown.", "quantifier": "every topology, boundary json, set of component types and validator that enforces required keys", "why_tests_cant": "arbitrary id sets; the merge alone misses components behind the last boundary id", "anchors": ["src/Model/Netfactory/Netfactory.cpp:build_net", "src/Model/Componentfactory/include/Componentfactory.hpp:make_instance"]}
{"id": "C72", "title": "A solved time step obeys all physical laws", "statement": "Whenever the residual of a network (the vector the solver drives to zero) vanishes, all laws hold at once: every gas node has one pressure shared by all its edges, which is the prescribed one at pressure nodes; Kirchhoff's law holds at inner nodes, sources and sinks; short pipes, control valves and compressors change the pressure by what their control demands; the discretised isothermal Euler equations hold in every pipe cell; the power flow equations hold with the prescribed values; the plants generate power from the gas they take. Conversely, a state that obeys these laws has residual zero.", "quantifier": "every network, every state and control, every time step", "why_tests_cant": "quantifies over all networks; an unwritten or doubly written row would only show up in particular topologies", "anchors": ["src/Model/Networkproblem/Networkproblem.cpp:evaluate", "src/Model/Networkproblem/Gas/Pipe.cpp:evaluate", "src/Model/Networkproblem/Power/Powernode.cpp:P"]}
{"id": "C73", "title": "The optimizer's derivatives for a network are exact", "statement": "For a network with compressors as controls and constrained sinks, the gradient handed to the solver is the derivative of the discretised objective (cost and penalty integrated over time), and the Jacobian is that of all constraints at all constraint times, as functions of the control values at all control times, where the states are the solution of the network equations.", "quantifier": "every network, every control, state and constraint grid, every control value at which the simulation succeeds", "why_tests_cant": "It joins assembly, indices, all component derivatives, quadrature, interpolation and the adjoint sweep; finite differences sample single networks", "anchors": ["src/IpoptWrapper/ImplicitOptimizer.cpp:compute_derivatives", "src/IpoptWrapper/ImplicitOptimizer.cpp:update_cost_derivative_matrices", "src/Model/Networkproblem/Networkproblem.cpp:d_evaluate_cost_d_control"]}
{"id": "C74", "title": "Constraints of sinks bound the pressure", "statement": "The value of the constraint of a constrained sink, which is compared with the user's pressure bounds, is the pressure at that sink.", "quantifier": "every network, every constrained sink, every solved state", "why_tests_cant": "depends on which kind of edge is attached first", "anchors": ["src/Model/Networkproblem/Gas/ConstraintSink.cpp:evaluate_constraint"]}
{"id": "C75", "title": "No gas is created or lost", "statement": "Whenever the equations of the time steps of a simulation are solved, the mass of gas in all pipes together changes exactly by what enters at sources and pressure nodes, minus what leaves at sinks and what power plants burn, integrated over the time steps.", "quantifier": "every network, every number of time steps", "why_tests_cant": "global conservation law over all topologies and histories", "anchors": ["src/Model/Networkproblem/Gas/Gasnode.cpp:evaluate_flow_node_balance", "src/Model/Scheme/include/Implicitboxscheme.hpp:evaluate_point"]}
{"id": "C76", "title": "Every unit of a measure can be used", "statement": "Every unit listed for a measure can be used in measurements, alone and with every SI prefix. (False for square and cubic metres, whose names are used unescaped in a regular expression.)", "quantifier": "every measure, unit, prefix and value", "why_tests_cant": "tests use a few units only", "anchors": ["src/Auxillary/unit_conversion/unit_conversion.cpp:re_capture_from_map", "src/Auxillary/unit_conversion/unit_conversion.cpp:get_schema"]}
{"id": "C77", "title": "Initial values that pass validation are read as written", "statement": "The schema of a component for initial values accepts exactly the jsons with an id and a list of points, each with the component's number of values, in the prescribed number and with the prescribed points among them. Every accepted json is read without undefined behaviour and gives exactly the written points and values, which become the component's state; every other one throws.", "quantifier": "every json value and every schema of a component", "why_tests_cant": "there are infinitely many jsons that should be accepted or rejected", "anchors": ["src/Auxillary/json_schema/make_schema.cpp:make_initial_schema", "src/Auxillary/InterpolatingVector/InterpolatingVector.cpp:construct_from_json", "src/Model/Networkproblem/Componentclasses/SimpleStatecomponent.cpp:set_simple_initial_values", "src/Model/Networkproblem/Gas/Shortcomponent.cpp:get_initial_schema"]}
{"id": "C78", "title": "Boundary values and controls that pass validation are read as written", "statement": "The schema for boundary values and controls only accepts jsons which are then read without undefined behaviour and give exactly the written times and values. (False: time and values are not required and the list may be empty.)", "quantifier": "every json value", "why_tests_cant": "there are infinitely many jsons, and undefined behaviour may pass unnoticed", "anchors": ["src/Auxillary/json_schema/make_schema.cpp:make_boundary_schema", "src/Auxillary/InterpolatingVector/InterpolatingVector.cpp:construct_from_json"]}
{"id": "C79", "title": "The file of states shows the computed states", "statement": "After a simulation, states.json lists under each class and type exactly the components of this class and type, in order; each has its id and one entry per saved time, in order, with this time and the part of the state that belongs to the component: voltage, phase and the reported powers of a power node, pressure (in bar) and flow at each point of a gas component.", "quantifier": "every network, every number of time steps, every sequence of states", "why_tests_cant": "sizes and types of networks are unbounded; a wrong index shows only for some networks", "anchors": ["src/Grazer/commands.cpp:grazer::run", "src/Model/Networkproblem/Networkproblem.cpp:json_save", "src/Model/Networkproblem/Networkproblem.cpp:add_results_to_json", "src/Model/Networkproblem/Gas/Pipe.cpp:json_save", "src/Model/Networkproblem/Gas/Shortcomponent.cpp:json_save", "src/Model/Networkproblem/Power/Powernode.cpp:json_save_power"]}
{"id": "C80", "title": "Initial values extracted from results give back the saved state", "statement": "From the states.json of a simulation, extract_new_initial_condition makes initial values for the last saved time before the given one (or the first saved time, if there is none). They are accepted by the schemas, and a simulation that reads them starts with exactly the state that was saved for this time.", "quantifier": "every network, every list of saved states, every time", "why_tests_cant": "the round trip passes through five programs and must be exact for all states", "anchors": ["helper_functions/extract_new_initial_condition.cpp:main", "src/Model/Networkproblem/Networkproblem.cpp:set_initial_values", "src/Model/Networkproblem/Networkproblem.cpp:json_save"]}
{"id": "C81", "title": "Controls written to a file and read again are the same", "statement": "The file controls.json lists the controls of each component at each control time. Given as initial controls on the same control times, it yields exactly the controls it was written from.", "quantifier": "every set of control components, every grid of times, all values", "why_tests_cant": "unbounded numbers of components, times and values", "anchors": ["src/Model/Networkproblem/Componentclasses/SimpleControlcomponent.cpp:save_controls_to_json", "src/Model/Networkproblem/Networkproblem.cpp:set_initial_controls"]}
{"id": "C82", "title": "A simulation can be stopped and continued", "statement": "A simulation over all times gives the same states as one over the first times, followed by one that starts with the last state (also when this state goes through states.json and extract_new_initial_condition) and goes over the remaining times; one succeeds if and only if both others do.", "quantifier": "every network without random demands, every partition of the times, all controls", "why_tests_cant": "all histories; depends on the absence of hidden state between steps", "anchors": ["src/Model/Problemlayer/Timeevolver.cpp:simulate", "src/Newtonsolver/Newtonsolver.cpp:solve", "helper_functions/extract_new_initial_condition.cpp:main"]}
{"id": "C83", "title": "Small residuals mean small violations of every law", "statement": "If no entry of the residual of a time step of a network exceeds a number eps, then every physical law holds up to eps: prescribed pressures, Kirchhoff's law at inner nodes, sources and sinks, the pressure changes and flows of short pipes, valves and compressors, the box scheme in every pipe cell, the power flow equations and the generation of plants; at a node with m ends of gas edges all pressures agree up to (m-1)*eps.", "quantifier": "All admissible networks, times, states, controls and bounds eps.", "why_tests_cant": "The solver never makes the residual vanish; what users rely on is the size of the violation for every network shape, which no finite set of networks shows.", "anchors": ["src/Model/Networkproblem/Networkproblem.cpp:evaluate", "src/Model/Networkproblem/Gas/Gasnode.cpp:evaluate_flow_node_balance", "src/Model/Networkproblem/Gas/Pressureboundarynode.cpp:evaluate", "src/Model/Problemlayer/Timeevolver.cpp:simulate"]}
{"id": "C84", "title": "The gas balance of an inexactly solved simulation drifts by a bounded amount", "statement": "Over any number of time steps whose residual entries are at most eps, the mass of the gas in all pipes differs from the initial mass plus what entered at the nodes minus what was burnt in plants by at most eps times the sum over the steps of (the volume of all pipes, plus density times step length for each short component and each inner or flow node).", "quantifier": "All admissible networks, numbers and lengths of steps, states, controls and bounds eps.", "why_tests_cant": "Errors accumulate over steps and pipes; a bound for every length of simulation cannot be sampled.", "anchors": ["src/Model/Scheme/include/Implicitboxscheme.hpp:evaluate_point", "src/Model/Networkproblem/Gas/Pipe.cpp:evaluate", "src/Model/Networkproblem/Gas/Gasnode.cpp:evaluate_flow_node_balance"]}
{"id": "C85", "title": "Every state a simulation returns obeys the laws of physics up to the tolerance", "statement": "If the simulation of a network returns, it returns one state per time, beginning with the initial state, and every further state without NaN and without division by zero obeys all physical laws between the previous time and its own, with the controls of its own time, up to the solver tolerance; the gas balance of the whole simulation holds up to the tolerance times the bound of C84. This does not depend on the Jacobian or the linear solver being right.", "quantifier": "All admissible networks, time lists, controls, initial states, tolerances, iteration limits and retry settings, and all behaviours of the linear solver.", "why_tests_cant": "The claim ranges over whole runs of the program with an iterative solver, retries and arbitrary networks.", "anchors": ["src/Model/Problemlayer/Timeevolver.cpp:simulate", "src/Newtonsolver/Newtonsolver.cpp:solve", "src/Model/Networkproblem/Networkproblem.cpp:evaluate"]}
{"id": "C86", "title": "states.json and controls.json of an optimization belong together", "statement": "After an optimization, the states that are written are those of the simulation with the controls that are written, whatever was evaluated before; in particular if any evaluation at the solution succeeded.", "quantifier": "All problems, histories of evaluations and solutions.", "why_tests_cant": "The states come from a cache that many callbacks share; whether it is stale depends on the order of calls of the external optimizer.", "anchors": ["src/Grazer/commands.cpp: optimize", "src/IpoptWrapper/Wrapper.cpp: finalize_solution", "src/IpoptWrapper/ImplicitOptimizer.cpp: evaluate_objective, new_x, get_current_full_state"]}
{"id": "C87", "title": "The printed constraint violations are those of the solution", "statement": "The 'Maximum lower/upper constraint violation' printed after an optimization are the least amounts by which the lower and upper bounds would have to be relaxed for the solution to be feasible.", "quantifier": "All problems with and without constraints, histories of evaluations and solutions.", "why_tests_cant": "The result depends on which point the external optimizer evaluated last.", "anchors": ["src/Grazer/commands.cpp: optimize", "src/IpoptWrapper/ImplicitOptimizer.cpp: evaluate_constraints"]}
{"id": "C88", "title": "Equilibria are kept", "statement": "If boundary values and controls do not change over time and the initial state solves a time step from itself to itself, then the simulation returns the initial state for all times, for every time grid, tolerance, number of retries and iteration limit, and whatever the Jacobian is. Whether a state is an equilibrium does not depend on the length of the time step.", "quantifier": "All admissible networks, time grids, solver settings, equilibria.", "why_tests_cant": "Ranges over all time grids and networks; a test tries a few step lengths.", "anchors": ["src/Model/Problemlayer/Timeevolver.cpp: simulate, make_one_step", "src/Newtonsolver/Newtonsolver.cpp: solve", "src/Model/Scheme/include/Implicitboxscheme.hpp: evaluate_point"]}
{"id": "C89", "title": "The direction of pipes, short pipes and lines is only a convention", "statement": "If any set of pipes, short pipes and transmission lines is entered with start and end swapped, a step is a solution if and only if it was one before, with the points in the reversed pipes in reverse order and their flows with the other sign; every state has such a mirrored state.", "quantifier": "All admissible networks, sets of reversed symmetric edges, times, states and controls.", "why_tests_cant": "Ranges over all networks and all subsets of edges; sign errors at one kind of component show up only for particular orientations.", "anchors": ["src/Model/Networkproblem/Gas/Pipe.cpp", "src/Model/Networkproblem/Gas/Shortpipe.cpp", "src/Model/Networkproblem/Power/Transmissionline.cpp", "src/Model/Networkproblem/Gas/Gasnode.cpp", "src/Model/Balancelaw/Isothermaleulerequation.cpp", "src/Model/Scheme/include/Implicitboxscheme.hpp"]}
{"id": "C90", "title": "Derivatives in reused matrices", "statement": "The optimizer fills the same derivative matrices in place for all time steps of all gradient computations. What a gradient computation returns does not depend on what was computed before: it is what fresh matrices at every step would give; and the matrix handed to the sparse solver always has the sparsity pattern that was analyzed once at the beginning.", "quantifier": "All admissible networks with attached constraint sinks, all histories of earlier gradient computations that returned, reporting success or failure, and all states and controls at which the derivatives can be evaluated.", "why_tests_cant": "Stale entries show up only for particular sequences of states; ranges over all histories.", "anchors": ["src/IpoptWrapper/ImplicitOptimizer.cpp: initialize_derivative_matrices, update_equation_derivative_matrices, update_constraint_derivative_matrices, update_cost_derivative_matrices, compute_derivatives", "src/Auxillary/Matrixhandler/Matrixhandler.cpp"]}
{"id": "C91", "title": "Only differences of angles matter", "statement": "If the same constant is added to all prescribed voltage angles and to all angles of the initial state, a simulation ends in the same way, and if it returns, the constant is added to all angles of all states and nothing else changes: the reference of the angles is a convention.", "quantifier": "All admissible networks, constants, time grids, controls, initial states, tolerances and retry settings, and all ways to factorize the Jacobian.", "why_tests_cant": "Ranges over all networks, states and constants, and over all intermediate iterates of the solver.", "anchors": ["src/Model/Networkproblem/Power/Powernode.cpp: P, Q", "src/Model/Networkproblem/Power/Vphinode.cpp: evaluate", "src/Model/Networkproblem/Networkproblem.cpp: evaluate", "src/Newtonsolver/Newtonsolver.cpp: solve", "src/Model/Problemlayer/Timeevolver.cpp: simulate"]}
{"id": "C92", "title": "The origin of time does not matter", "statement": "If boundary conditions, controls and the time grid are all moved by the same amount of time, a simulation ends in the same way and returns the same states.", "quantifier": "All admissible networks, shifts, time grids, controls, initial states, tolerances and retry settings, and all ways to factorize the Jacobian.", "why_tests_cant": "Ranges over all networks, states and shifts, and over all intermediate iterates of the solver.", "anchors": ["src/Model/Networkproblem/Networkproblem.cpp: evaluate, d_evaluate_d_new_state", "src/Model/Scheme/include/Implicitboxscheme.hpp", "src/Newtonsolver/Newtonsolver.cpp: solve", "src/Model/Problemlayer/Timeevolver.cpp: simulate"]}
{"id": "C93", "title": "Interpolation in floating point arithmetic", "statement": "Also with rounding after each operation, evaluating boundary values, controls or states at an interpolation point gives exactly the stored vector; between two points the result differs from the exact interpolant by at most ten units of rounding and overshoots the stored values by at most four; times outside are rejected, and there is no undefined behaviour.", "quantifier": "All roundings that are monotone, leave rounded numbers alone and have a small relative error (in particular that of double), all grids, values and times of type double, without overflow and underflow.", "why_tests_cant": "The set of double values is far too large, and rounding errors depend on all digits.", "anchors": ["src/Auxillary/InterpolatingVector/InterpolatingVector.cpp: operator()"]}
{"id": "C94", "title": "Data for the whole simulated time suffice, also in floating point arithmetic", "statement": "If boundary values and controls are given for all times from the start to the end of a simulation, then they can be evaluated at all times of the simulation, which start exactly at the start, never decrease, and are as many as reported.", "quantifier": "All start and end times and wished steps of type double, all boundary values and controls that cover the time between.", "why_tests_cant": "Rounding errors accumulate differently for each start, end and step.", "anchors": ["src/Auxillary/InterpolatingVector/InterpolatingVector.cpp: make_from_start_delta_end, set_equidistant_interpolation_points, operator()", "src/Auxillary/Timedata/Timedata.cpp: init_Number_of_timesteps, init_delta_t", "src/Grazer/commands.cpp: run", "src/Model/Problemlayer/Timeevolver.cpp: simulate"]}
{"id": "C95", "title": "The order of entries in input files does not matter", "statement": "Writing the components of a topology, of boundary values, of initial values or of controls and bounds in another order gives the same network, the same initial state and the same controls and bounds.", "quantifier": "All input files, all permutations of the lists of components in them.", "why_tests_cant": "There are factorially many orders, and indices of all components depend on the order in which they are built.", "anchors": ["src/Auxillary/ComponentJsonHelpers/ComponentJsonHelpers.cpp: sort_json_vectors_by_id, check_for_duplicates", "src/Model/Netfactory/Netfactory.cpp: build_full_networkproblem_json", "src/Model/Networkproblem/Networkproblem.cpp: set_initial_values, set_initial_controls"]}
{"id": "C96", "title": "A run with stochastic demands can be reproduced from its output", "statement": "The results of a run name, for each stochastic node, the seed of its random number generator. Including these seeds in the boundary values with the helper program changes nothing else, and a second run with them builds exactly the same nodes, with the same random numbers to come, whatever seeds are drawn. Removing the seeds with the helper program leaves everything else as it was.", "quantifier": "All boundary values and results, all numbers of stochastic nodes, all drawn seeds and contents of uninitialised memory.", "why_tests_cant": "Seeds are drawn at random, and reading a seed back must work for all values of 256 bits.", "anchors": ["src/Model/Networkproblem/Power/StochasticPQnode.cpp: StochasticPQnode", "src/Auxillary/Stochastics/Normaldistribution.cpp: setup_random_number_generator, make_random_seed", "helper_functions/include_seed_in_boundaryvalues.cpp: main", "helper_functions/remove_seed_from_boundaryvalues.cpp: main"]}
{"id": "C97", "title": "Evaluating the same controls again gives the same result", "statement": "Within one run, as in an optimization, simulating the same network twice with the same initial state and the same controls gives the same states, hence the same objective and constraints.", "quantifier": "all networks with stochastic nodes, random number generators, solvers, controls, times and initial states", "why_tests_cant": "The second simulation depends on what the random generators of the nodes did during the first one; tests simulate once, or with fixed seeds.", "anchors": ["src/Model/Problemlayer/Timeevolver.cpp:Timeevolver::simulate", "src/Model/Networkproblem/Power/StochasticPQnode.cpp:StochasticPQnode::prepare_timestep", "src/Optimization_helpers/ControlStateCache.cpp:ControlStateCache::refresh_cache"]}
{"id": "C98", "title": "The settings of the solver do not change the random demand", "statement": "If the equations of a time step have a unique solution, then two simulations that succeed, with the same seeds, give the same states, however many attempts they need and whether they use the simplified Newton method.", "quantifier": "all networks with stochastic nodes, seeds, solvers, numbers of retries, both Newton methods", "why_tests_cant": "Whether an attempt fails depends on the network and the data; tests with stochastic nodes have no failing attempts.", "anchors": ["src/Model/Problemlayer/Timeevolver.cpp:Timeevolver::make_one_step", "src/Model/Networkproblem/Networkproblem.cpp:Networkproblem::prepare_timestep", "src/Model/Networkproblem/Power/StochasticPQnode.cpp:StochasticPQnode::prepare_timestep"]}
{"id": "C99", "title": "A network is read as the files say", "statement": "Whenever a network is read from the jsons of topology, boundary values and defaults, its nodes and edges are exactly those of the topology. Each has the id and the type of its entry. Conductances, susceptances and coefficients are the numbers given in the entry or, if missing there, in the defaults for its type. Length, diameter and roughness of a pipe are the given quantities in metres, and the pipe is divided into the smallest number of equal cells not wider than wished. Each edge leads from the node named in 'from' to the node named in 'to'. The boundary condition of each node is the affine interpolation of the values listed for its id, with the opposite sign for sinks, and throws outside of the listed times.", "quantifier": "all topology, boundary and default jsons, all numbers and types of components, all units and all values", "why_tests_cant": "There are sixteen types of components, read by as many constructors, with defaults that may give any part of the data; a swapped argument or a wrong key shows only for particular data.", "anchors": ["src/Model/Componentfactory/Full_factory/Full_factory.cpp: Full_factory", "src/Model/Componentfactory/include/Componentfactory.hpp: NodeType, EdgeType", "src/Model/Networkproblem/Gas/Pipe.cpp: Pipe", "src/Model/Networkproblem/Power/Powernode.cpp: Powernode", "src/Model/Networkproblem/Power/Transmissionline.cpp: Transmissionline", "src/Model/Networkproblem/Gas/Sink.cpp: Sink"]}
{"id": "C100", "title": "A network that is read and set up can be simulated", "statement": "If a network is read from files and set up without an exception, then its equations can be evaluated for every state and control, at every time that is covered by the boundary values: nothing throws and nothing is undefined.", "quantifier": "all topology, boundary and default jsons, all times, states and controls", "why_tests_cant": "There are sixteen types of components which can be joined in all ways, and it takes a particular combination to get a null pointer.", "anchors": ["src/Model/Netfactory/Netfactory.cpp: build_net", "src/Model/Networkproblem/Networkproblem.cpp: setup, evaluate", "src/Model/Networkproblem/Power/Transmissionline.cpp: get_ending_powernode", "src/Model/Networkproblem/Power/Powernode.cpp: setup"]}
{"id": "C101", "title": "Simulated states obey the laws with the data of the files", "statement": "Whatever a simulation of the network in the files returns respects the files: there is a state for each time, the first one is the initial state, and each further state is reached with the controls of its time such that sources, sinks, pressure nodes and nodes of the grid get the values listed for their ids (interpolated in time), inner nodes lose no gas, all gas edges at a node have the same pressure, pipes obey the discretised Euler equations with their length, diameter and roughness in the files, compressors and valves change the pressure by their control, and plants convert with their coefficients, all up to the tolerance of the solver.", "quantifier": "all files that fit together: edges join nodes of the types allowed for them, lengths of pipes and cells are positive, diameters are at least 10^-11 m and not less than the roughness, and boundary values cover the simulated time; all solvers, tolerances, numbers of iterations and retries, controls, initial states and lists of times; states free of NaN and of divisions by zero", "why_tests_cant": "It is about every network and every path through reading, assembling, solving and retrying.", "anchors": ["src/Grazer/commands.cpp: grazer::run", "src/Model/Problemlayer/Timeevolver.cpp: simulate", "src/Model/Networkproblem/Networkproblem.cpp: evaluate", "src/Model/Componentfactory/Full_factory/Full_factory.cpp: Full_factory"]}
{"id": "C102", "title": "A run begins with the file of initial values and follows all files", "statement": "Whenever a run without optimization succeeds, its times go from the start to the end of the simulation in equal steps that are at most as long as desired, there is one state for each time, the first state has the values of the file of initial values (voltage and angle of nodes of the grid, pressure and flow at both ends of short pipes, compressors and valves, pressure and flow at every point of a pipe, listed or interpolated), and every further state respects topology, boundary values and defaults (C101) with the controls that are interpolated between the control times, where they have the values of the control file.", "quantifier": "all files that fit together: edges join nodes of the types allowed for them, lengths of pipes and cells are positive, diameters are at least 10^-11 m and not less than the roughness, and boundary values cover the simulated time; all time and solver settings, linear solvers and contents of uninitialised memory; states free of NaN and of divisions by zero", "why_tests_cant": "The values pass from files through schemas, interpolation, unit conversion and index arithmetic for all components at once into one vector; a wrong index for one combination of components goes unnoticed in a test.", "anchors": ["src/Grazer/commands.cpp: grazer::run", "src/Grazer/helpers.cpp: setup_controls", "src/Model/Networkproblem/Networkproblem.cpp: set_initial_values, set_initial_controls", "src/Model/Networkproblem/Gas/Pipe.cpp: set_initial_values"]}
{"id": "C103", "title": "A run does not depend on uninitialised memory", "statement": "The vectors for boundary values, initial states, controls and bounds are allocated without a value and filled from the files. A run without optimization gives the same times and states, and one with optimization poses the same problem to Ipopt (starting point, bounds, objective and constraints), or fails in the same way, whatever was in that memory before: no entry is read before it is written, so runs with the same files agree.", "quantifier": "all files, problem settings, contents of memory, linear solvers and random draws; topologies whose sections are lists and in which no component type is repeated", "why_tests_cant": "Memory is usually zero or holds the same values in every test run; whether an entry can be left unwritten depends on all combinations of files.", "anchors": ["src/Grazer/commands.cpp: grazer::run", "src/Auxillary/InterpolatingVector/InterpolatingVector.cpp: InterpolatingVector::construct_from_json", "src/Model/Networkproblem/Networkproblem.cpp: set_initial_values, set_initial_controls"]}
{"id": "C104", "title": "The optimization problem handed to Ipopt is the one of the files", "statement": "Whenever an optimization is set up, Ipopt gets one variable for each compressor or control valve and each control time and one constraint for each ConstraintSink and each constraint time, numbered time by time without overlaps. Starting point and bounds of variables and constraints have the values of the control file and the files of bounds (listed or interpolated) at these numbers. The announced places of the Jacobian are distinct and are just those where a control can influence a constraint. For every value of the variables that Ipopt tries, the states begin with the file of initial values and respect topology and boundary values with the controls interpolated between the control times; the objective exists whenever the simulation succeeds and is the trapezoidal sum over time of the squares of the controls of all compressors (taken as zero at the first time); and the constraint of a sink is the pressure at the end of an edge there at the time of the constraint, unless the edge is a pipe.", "quantifier": "all files that fit together: edges join nodes of the types allowed for them, lengths of pipes and cells are positive, diameters are at least 10^-11 m and not less than the roughness, and boundary values cover the simulated time; all settings, linear solvers, contents of uninitialised memory, and all values of the variables", "why_tests_cant": "The mapping from files to numbers of variables and constraints involves all components and three grids of times; tests use few components, equal grids or equal bounds, which hide swapped or shifted entries.", "anchors": ["src/Grazer/commands.cpp: grazer::run", "src/IpoptWrapper/ImplicitOptimizer.cpp: ImplicitOptimizer, evaluate_objective, evaluate_constraints", "src/IpoptWrapper/Wrapper.cpp: get_nlp_info, get_bounds_info, get_starting_point, eval_f, eval_g", "src/Model/Networkproblem/Networkproblem.cpp: set_lower_bounds, set_upper_bounds, set_constraint_lower_bounds, set_constraint_upper_bounds"]}
{"id": "C105", "title": "The gradient Ipopt gets is the derivative of the objective", "statement": "Whenever Ipopt gets a gradient for some values of the variables, it has one entry for each variable, and entry i is the partial derivative with respect to variable i of the objective of the files: the trapezoidal sum over time of the squares of all compressor controls, interpolated between the control times. This function agrees with the objective value given to Ipopt wherever there is one. It does not matter how exactly the states were computed.", "quantifier": "all files that fit together: edges join nodes of the types allowed for them, lengths of pipes and cells are positive, diameters are at least 10^-11 m and not less than the roughness, and boundary values cover the simulated time; all settings, linear solvers, contents of uninitialised memory, and all values of the variables", "why_tests_cant": "Tests compare gradients with difference quotients at a few points; the assignment of entries to controls and times depends on all components and on two grids of times.", "anchors": ["src/IpoptWrapper/ImplicitOptimizer.cpp: evaluate_objective_gradient, compute_derivatives", "src/IpoptWrapper/Wrapper.cpp: eval_grad_f"]}
{"id": "C106", "title": "The Jacobian Ipopt gets is the derivative of the constraints", "statement": "Whenever Ipopt gets values of the Jacobian for some values of the variables, there is one for each announced place, and it is the partial derivative of the constraint (the pressure at a constrained sink at a constraint time, as given to Ipopt) with respect to the variable, for states that depend continuously on the variables such that the equations of all time steps stay as well solved as they are. Derivatives at places that are not announced are zero.", "quantifier": "all files, settings, linear solvers, contents of uninitialised memory, and all values of the variables with their simulated states", "why_tests_cant": "Tests compare with difference quotients at a few points of small networks; the statement is about all networks, grids and states, and about each of the places.", "anchors": ["src/IpoptWrapper/ImplicitOptimizer.cpp: evaluate_constraint_jacobian, compute_derivatives", "src/IpoptWrapper/ConstraintJacobian.cpp: supply_indices, get_column_block", "src/IpoptWrapper/Wrapper.cpp: eval_jac_g"]}
{"id": "C107", "title": "Derivatives exist wherever the simulation succeeds", "statement": "For all values of the variables for which the simulation yields finite states, Ipopt gets a gradient and values of the Jacobian; no exception is thrown.", "quantifier": "all files, settings, linear solvers, contents of memory, and all values of the variables whose simulation succeeds", "why_tests_cant": "Failures depend on singular matrices and on memory in front of an array; tests see neither.", "anchors": ["src/IpoptWrapper/ImplicitOptimizer.cpp: evaluate_objective_gradient, evaluate_constraint_jacobian, compute_derivatives"]}
{"id": "C108", "title": "What was computed is written", "statement": "If a simulation succeeds and all its states are free of NaN, the file states.json is written: for each node of the power grid and each gas component of the topology there is exactly one object, under its type and with its id, and it has an entry for each time with voltage, angle, active and reactive power or with pressure and flow at all points.", "quantifier": "all files, settings, linear solvers, contents of uninitialised memory, and ways of printing numbers", "why_tests_cant": "A test writes the results of a few runs; whether writing can fail after a simulation that succeeded depends on all data of all components at all times.", "anchors": ["src/Grazer/commands.cpp: grazer::run", "src/Model/Networkproblem/Power/PQnode.cpp: json_save"]}
{"id": "C109", "title": "The file of results obeys the laws with the data of the input files", "statement": "Whatever is in states.json, by the ids of components: the times go from start to end in equal steps that are at most as long as desired; the first results are those in the file of initial values; at each later time, up to the tolerance of the solver, sources and sinks take the amounts listed for the time, prescribed pressures, voltages, angles and powers are met, inner nodes lose no gas, all ends at a gas node have the same pressure, compressors and valves change the pressure by the control of the file, short pipes keep pressure and flow, pipes obey the box scheme of the Euler equations with their length, diameter and roughness, and plants convert gas to power with the coefficients of their connection. Powers reported for a node are those prescribed or else those flowing into the grid.", "quantifier": "all files that fit together: edges join nodes of the types allowed for them, lengths of pipes and cells are positive, diameters are at least 10^-11 m and not less than the roughness, and boundary values cover the simulated time; all settings, linear solvers, contents of uninitialised memory, and ways of printing numbers; all times with nonzero pressures in pipes", "why_tests_cant": "Tests check residuals of a few networks and read a few output files; that the numbers found in the file under an id obey the law of the component with this id depends on reading, numbering, solving and writing for every network.", "anchors": ["src/Grazer/commands.cpp: grazer::run", "src/Model/Networkproblem/Networkproblem.cpp: json_save, add_results_to_json"]}
{"id": "C110", "title": "What an editor accepts with the generated schemas, the program accepts", "statement": "Schemas for editors are generated with the defaults of a problem. If the generated schemas accept the topology and the file of boundary values, then each component of the topology passes the validation by the program when defaults are filled in: as it is if its type needs no boundary values, and otherwise with any entry of its type in the file of boundary values.", "quantifier": "all defaults for which schemas are generated, all topologies and files of boundary values, all components in them", "why_tests_cant": "Tests validate a few files; the schemas are transformed by defaults in two different ways (for the editor and for the program), and both must fit for all defaults and files.", "anchors": ["src/Auxillary/json_schema/schema_generation.cpp: make_full_factory_schemas", "src/Model/Componentfactory/Componentfactory.cpp: get_topology_schema, get_boundary_schema", "src/Model/Componentfactory/include/Componentfactory.hpp: get_schema, get_component_boundary_schema"]}
{"id": "C111", "title": "The generated schemas accept every topology the program reads", "statement": "If the program builds a network from a topology, boundary values and defaults, and schemas are generated with the same defaults, then the generated schema accepts the topology: an editor does not complain about a working problem.", "quantifier": "all defaults, topologies and files of boundary values from which the program builds a network", "why_tests_cant": "One sees a false complaint only for the file that provokes it.", "anchors": ["src/Auxillary/json_schema/schema_generation.cpp: make_full_factory_schemas", "src/Model/Componentfactory/Componentfactory.cpp: get_topology_schema, get_boundary_schema", "src/Model/Componentfactory/include/Componentfactory.hpp: get_schema, get_component_boundary_schema"]}
{"id": "C112", "title": "Schemas can be generated for every problem that the program reads", "statement": "If the program builds a network with some defaults, then schemas are generated with these defaults.", "quantifier": "all defaults, topologies and files of boundary values from which the program builds a network", "why_tests_cant": "Generation fails only for particular defaults; tests try one or two.", "anchors": ["src/Auxillary/json_schema/schema_generation.cpp: make_full_factory_schemas", "src/Model/Componentfactory/Componentfactory.cpp: get_topology_schema, get_boundary_schema", "src/Model/Componentfactory/include/Componentfactory.hpp: get_schema, get_component_boundary_schema"]}
{"id": "C113", "title": "After inserting keys each file refers to its schema and keeps its data", "statement": "When the command for inserting keys ends successfully, each file of the problem for which there is a schema refers to this schema, and has apart from that the keys and values it had, in the same order. Running the command again changes nothing more. No other file is touched.", "quantifier": "all contents of the files, ways of parsing and printing, and runs of the command", "why_tests_cant": "The result depends on the keys the files already have.", "anchors": ["src/Auxillary/json_schema/schema_key_insertion.cpp: insert_schema_key_into_data_jsons", "src/Auxillary/aux_json/Aux_json.cpp: overwrite_json"]}
{"id": "C114", "title": "Inserting keys never loses data", "statement": "However often the command for inserting keys is started and wherever it is killed, the content that each file of the problem had is still there: in the file, in the backup, or in the file together with the key.", "quantifier": "all contents of the files, all points where a run may be killed, any number of runs", "why_tests_cant": "Tests do not kill the program, and the loss needs a second run after a kill at a particular point.", "anchors": ["src/Auxillary/json_schema/schema_key_insertion.cpp: insert_schema_key_into_data_jsons", "src/Auxillary/aux_json/Aux_json.cpp: overwrite_json"]}
{"id": "C115", "title": "Generating schemas only writes schemas", "statement": "Wherever it is killed, the generation of schemas has changed no other files than the five schema files. If the directory of schemas contains a directory or a file whose name does not begin like a schema, nothing at all is changed. At the end the five files contain the generated schemas.", "quantifier": "all file systems, all generated texts, all points where the program may be killed", "why_tests_cant": "The directory is chosen by the user and may contain anything; the program may be killed anywhere.", "anchors": ["src/Auxillary/json_schema/schema_generation.cpp: make_schemas, assert_only_known_schemas, key_from_map_is_prefix"]}
{"id": "C116", "title": "The result of an optimization can be checked by a simulation", "statement": "After an optimization, controls.json has one entry for each component with a control, listing the control times and the values of this control in the vector the solver returned, and nothing else. If the simulation with these values succeeds (C86 and C87 treat the other case), and numbers are printed such that reading them gives the same numbers, then running the program on the same problem without optimization, with controls.json as the file of controls, simulates exactly the same states and writes the same states.json. So the states of an optimization obey all laws with the controls written next to them.", "quantifier": "all problems whose files fit together (see C101), all settings, files of bounds, and all vectors the solver may return", "why_tests_cant": "A test replays one optimization of one network; the claim is about all networks, control times and vectors, also those for which the simulation fails.", "anchors": ["src/Grazer/commands.cpp: grazer::run", "src/Model/Networkproblem/Componentclasses/SimpleControlcomponent.cpp: save_controls_to_json", "src/Model/Networkproblem/Networkproblem.cpp: save_controls_to_json, set_initial_controls"]}
{"id": "C117", "title": "Results can be exported completely and exactly", "statement": "For every file of results that a simulation wrote, the program for exporting csv tables finds each gas component and each (non-stochastic) node of the power grid by its id, whatever the order of components in the topology. The tables it writes contain exactly the results: the positions in the first row and then for each saved time one row with the flows, or the pressures, at these positions; or one row for each time with active power, reactive power, voltage and angle. For any other id no table is written.", "quantifier": "all problems whose files fit together (see C101), all ids and saved times", "why_tests_cant": "The export looks for components by bisection, which is correct only if every list of the file is sorted; a test shows this for one network, not for every order of components in the topology and every id.", "anchors": ["helper_functions/generate_printing_csv.cpp: main, write_power_csv, write_gas_csv", "src/Grazer/commands.cpp: grazer::simulate", "src/Model/Networkproblem/Networkproblem.cpp: json_save, add_results_to_json"]}
{"id": "C118", "title": "The solver finds the solution if it starts close enough", "statement": "If a state solves the equations of a time step exactly, with invertible matrix of derivatives, with boundary data for the time, positive densities (as given by the pressure law) and no turbulent flow in the pipes, then the Newton solver succeeds from every guess close enough to it, for every last state and control close enough to the given ones, for every positive tolerance, in both modes, without damping, within a number of iterations that depends on the tolerance only; the result differs from the exact state by at most a constant times (tolerance + difference of last states + difference of controls). A whole simulation follows an exact sequence of states that changes little from step to step: no time step is retried, and all states stay within a constant times the perturbation of the first state and the controls.", "quantifier": "all networks, states, controls, tolerances, guesses, limits and grids of times", "why_tests_cant": "Tests show convergence for some starting points of some networks. That it happens in a whole neighbourhood, for all tolerances, and that errors do not pile up beyond a constant factor over a run is a statement about infinitely many runs.", "anchors": ["src/Newtonsolver/Newtonsolver.cpp: solve", "src/Model/Problemlayer/Timeevolver.cpp: simulate", "src/Model/Networkproblem/Networkproblem.cpp: evaluate, prepare_timestep"]}
{"id": "C119", "title": "The next state is a well-defined differentiable function of last state and controls", "statement": "Around a state at which the matrix of derivatives the components fill is invertible (with boundary data, positive densities and no turbulent flow), the equations of a time step have exactly one nearby solution for each nearby last state and control; it depends on them differentiably, with the derivative obtained from the matrices the components fill. Hence whenever Ipopt gets derivatives for some values of the controls, the simulated states extend in exactly one way to states for all nearby controls for which the equations stay as well solved as they are: the problem Ipopt solves is locally a well-defined smooth problem.", "quantifier": "all networks, states, controls, and for problems from files that fit together (see C101) all values of the variables at which derivatives are computed", "why_tests_cant": "Existence and uniqueness of nearby solutions for all nearby data is not observable in finitely many runs.", "anchors": ["src/Model/Networkproblem/Networkproblem.cpp: evaluate, d_evaluate_d_new_state, d_evaluate_d_last_state, d_evaluate_d_control", "src/IpoptWrapper/ImplicitOptimizer.cpp: evaluate_constraint_jacobian, compute_derivatives"]}
{"id": "C120", "title": "A run writes to a directory of its own only", "statement": "Whatever a run of grazer changes in the file system is in a directory inside of 'output' that the run created itself; the problem and the results of other runs stay as they are, also if several runs are started on the same directory at the same time, or if a run fails or is stopped at any point.", "quantifier": "all directories, file systems, numbers of concurrent runs, interleavings of their steps with each other and with other programs, and points at which a run stops", "why_tests_cant": "A test sees a few schedules and points; the claim is about every interleaving and every point at which a run is stopped.", "anchors": ["src/Grazer/commands.cpp: run", "src/Auxillary/Input_Output/Input_output.cpp: prepare_output_file, create_new_output_file, attach_epoch_count", "src/Grazer/grazer.cpp: main"]}
{"id": "C121", "title": "The exit code tells whether there are results", "statement": "If a run returns 0, all its results have been written completely, and they are what is computed from the texts that the files had when they were read. If the computation throws an exception, the exit code is not 0 and there is no results file with contents.", "quantifier": "all problems, file systems, concurrent runs and interleavings", "why_tests_cant": "Exit codes have to be right for every problem and also if the file system or another program interferes at any step.", "anchors": ["src/Grazer/commands.cpp: run", "src/Grazer/grazer.cpp: main", "src/Auxillary/Input_Output/Input_output.cpp: prepare_output_file"]}
{"id": "C122", "title": "A run can be repeated from its output directory", "statement": "The output directory of a successful run contains a copy of the problem, and a run on this directory computes the same results.", "quantifier": "all problems, file systems, concurrent runs and interleavings", "why_tests_cant": "The copy is made after the computation, and files can be named in ways that leave the problem directory; tests try neither all names nor all schedules.", "anchors": ["src/Grazer/commands.cpp: run", "src/Auxillary/Input_Output/Input_output.cpp: prepare_output_file", "src/Auxillary/aux_json/Aux_json.cpp: replace_entry_with_json_from_file"]}
{"id": "C123", "title": "Settings are used as written or rejected", "statement": "A run uses the settings (times, tolerance, iterations, retries, kind of Newton method, control times, optimization or not, constraint times) exactly as they are written in the problem file, or it rejects the file.", "quantifier": "all json files of settings", "why_tests_cant": "Files of settings have unboundedly many forms: missing keys, other types, fractions, settings that exclude each other.", "anchors": ["src/Model/Problemlayer/Timeevolver.cpp: make_instance, get_schema", "src/Auxillary/Timedata/Timedata.cpp: Timedata", "src/Grazer/helpers.cpp: setup_controls", "src/Grazer/commands.cpp: run"]}
{"id": "C124", "title": "A run that reports success leaves the results of the problem", "statement": "If grazer run on a directory returns 0, then the file of states in the new output directory shows states which obey all laws for the topology, boundary values, initial values, controls and settings that are in the files of the directory; for an optimization, the file of controls has the optimum Ipopt found and the states are those of these controls.", "quantifier": "all directories with problems, all answers of the linear solver and of Ipopt, all interleavings with other runs and programs that leave the problem alone", "why_tests_cant": "It is a statement about all problems and schedules, from the texts on the disk to the texts on the disk.", "anchors": ["src/Grazer/commands.cpp: run", "src/Grazer/helpers.cpp: setup_controls", "src/Auxillary/aux_json/Aux_json.cpp: get_json_from_file_path", "src/IpoptWrapper/Adaptor.cpp: optimize"]}
{"id": "C125", "title": "Runs have no undefined behaviour", "statement": "Whatever is in the files of a problem, a run throws an exception or ends with a result; it never accesses memory out of bounds, takes the first element of an empty list, indexes a constant json with a missing key, divides by zero where an integer is to come out, or loops forever.", "quantifier": "all contents of the files of a problem (texts), all settings, all states reached in the computation", "why_tests_cant": "Contents of files are unbounded; undefined behaviour may go unnoticed in tests; the computation visits states that depend on the input.", "anchors": ["src/Grazer/commands.cpp: run", "src/Auxillary/Timedata/Timedata.cpp: Timedata", "src/Auxillary/InterpolatingVector/InterpolatingVector.cpp: construct_from_json", "src/Model/Networkproblem/Networkproblem.cpp: set_initial_values", "src/Newtonsolver/Newtonsolver.cpp: solve"]}
{"id": "C126", "title": "Files without mistakes are read", "statement": "If all types in the topology are known, every component has an id and all ids are different, everything that a component of its type needs is given in its entry or as a default and is of the right kind, defaults have known keys only, every node that needs boundary values (and no component that does not) has an entry of the right length in the boundary file, edges lead from one node to another one, and pipes have positive lengths and a known scheme, then the network is built: no exception is thrown and nothing undefined happens.", "quantifier": "all files of a network (any number of components of every type, any order, with or without defaults) without such mistakes", "why_tests_cant": "The files are unbounded, and whether a file passes depends on the merging of defaults, the insertion of boundary values by sorted ids, the schemas and the constructors together.", "anchors": ["src/Model/Netfactory/Netfactory.cpp: build_net", "src/Model/Componentfactory/include/Componentfactory.hpp: make_instance", "src/Auxillary/json_schema/schema_validation.cpp: apply_defaults", "src/Auxillary/aux_json/Aux_json.cpp"]}
{"id": "C127", "title": "With files without mistakes a run fails only if Newton's method fails", "statement": "If the files of the network have no mistakes (C126), edges join nodes of the right types, every power plant has a gas power connection, boundary values are given for all times of the simulation, initial values and controls are given for all components that have them (initial values along the whole length of each pipe, controls for all times), the start is before the end, the desired step is positive and the settings of the controls make sense, then a run without optimization gives results, or comes to a time step in which Newton's method itself fails: from the state of the run before this step, with the controls of the file, it does not converge although it uses the full Jacobian in the end, or it gives no result at all. Nothing else can make the run fail.", "quantifier": "all files and settings without such mistakes (any network, any number of times), all ways in which linear systems are solved, all contents of uninitialized memory", "why_tests_cant": "The networks and times are unbounded, and the run passes through reading, setup, initial values, controls and all time steps; any of them may throw for some file.", "anchors": ["src/Grazer/commands.cpp: run", "src/Grazer/helpers.cpp: setup_controls", "src/Model/Networkproblem/Networkproblem.cpp: setup, set_initial_values, set_initial_controls", "src/Model/Problemlayer/Timeevolver.cpp: simulate, make_one_step"]}
{"id": "C128", "title": "The program that scales inflows makes them sum up to the given value", "statement": "change_inflow, started with a value, scales the flows of all sources in the boundary values so that at both times they sum up to the value, with the proportions between sources kept and nothing else in the file changed; if the flows are not constant it leaves the file as it is.", "quantifier": "every file with boundary values, every value", "why_tests_cant": "The statement is about every file and every number of components, and about what is left when something is wrong in the middle of a file; tests try a few files.", "anchors": ["helper_functions/change_inflow.cpp:main"]}
{"id": "C129", "title": "The program that raises pressures raises all of them or none", "statement": "increase_pressure, started with a difference, adds it to every pressure in the initial values of pipes, valves, compressors, short pipes and gas power connections and changes nothing else in the file; if a value is no number it leaves the file as it is.", "quantifier": "every file with initial values, every difference", "why_tests_cant": "The statement is about every file and every number of components, and about what is left when something is wrong in the middle of a file; tests try a few files.", "anchors": ["helper_functions/increase_pressure.cpp:main"]}
{"id": "C130", "title": "The program that sums outflows prints the sum over all short pipes", "statement": "sum_outflow prints the sum of the flows at the ends of all short pipes in the initial values and no other number.", "quantifier": "every file with initial values", "why_tests_cant": "The statement is about every file and every number of components, and about what is left when something is wrong in the middle of a file; tests try a few files.", "anchors": ["helper_functions/sum_outflow.cpp:main"]}
{"id": "C131", "title": "The program that moves a component moves it in all files or in none", "statement": "move_to_category, started with two types and an id, takes the component with the id out of the list of the first type and appends it, unchanged, to that of the second type, in every file of the problem that lists it, and changes nothing else; if it cannot do so it leaves all files as they are.", "quantifier": "all contents of the four files, all types and ids", "why_tests_cant": "The statement is about all files and all places where the program can end; tests try a few files.", "anchors": ["helper_functions/move_to_category.cpp:main"]}
{"id": "C132", "title": "The program that adds a gas power connection adds it", "statement": "If construct_gaspowerconnection, started with the ids of two nodes, ends without an error, the topology has a gas power connection between these nodes, all files have an entry for it that is otherwise a copy of the first such entry, and nothing else is changed.", "quantifier": "all contents of the four files, all ids", "why_tests_cant": "The statement is about all files, with and without such connections; tests try a few files.", "anchors": ["helper_functions/construct_gaspowerconnection.cpp:main"]}
{"id": "C133", "title": "Controls found by an optimization can be exported as tables", "statement": "For every compressor station and control valve of the topology, generate_control_printing_csv finds its entry in the controls.json of an optimization and writes a table with a row for each control time: the time and the control at this time, as in the file. For every other id it ends with an error and writes nothing.", "quantifier": "all problems whose files fit together (see C101), all optimizations that write a file of controls, all vectors returned by Ipopt, all ids", "why_tests_cant": "The search is a bisection that is right only if the file is sorted in the way the optimization sorts it; tests try a few small files.", "anchors": ["helper_functions/generate_control_printing_csv.cpp:main", "src/Model/Networkproblem/Componentclasses/SimpleControlcomponent.cpp:save_controls_to_json"]}
{"id": "C134", "title": "The equations of a pipe approximate the isothermal Euler equations", "statement": "For every smooth solution of the isothermal Euler equations in a pipe with positive density there is a constant C such that, for every number of grid points and every time step, the residuals the pipe computes at the values of the solution at its grid points are at most C*dt*(dt+dx^2): the discretization is consistent, of first order in time and second order in space. Each cell satisfies a bound of this kind for every balance law.", "quantifier": "all smooth solutions with positive density, all pipes (diameter, roughness, length), all numbers of points, all time steps, laminar to turbulent flow", "why_tests_cant": "Solutions, grids and time steps form infinite sets; a test compares one solution on some grids and cannot show the order of the error.", "anchors": ["src/Model/Scheme/include/Implicitboxscheme.hpp:evaluate_point", "src/Model/Networkproblem/Gas/Pipe.cpp:evaluate", "src/Model/Balancelaw/Isothermaleulerequation.cpp:flux,source"]}
{"id": "C135", "title": "Friction acts against the flow, and stationary gas flows downhill", "statement": "In every pipe and at every positive density the friction term has the sign opposite to the flow, be it laminar, transitional or turbulent. In a stationary state in which the equations of a pipe hold and the gas is slower than sound, the flow is the same at all points and the pressure falls strictly from point to point in the direction of the flow (it is constant if there is no flow).", "quantifier": "all pipes with a real diameter and roughness, all numbers of points and cell widths, all time steps, all subsonic states with positive density", "why_tests_cant": "The sign of the friction factor between laminar and turbulent flow depends on a fitted polynomial whose coefficients depend on the pipe; tests only look at single pipes and flows.", "anchors": ["src/Model/Balancelaw/Isothermaleulerequation.cpp:source,lambda_non_laminar", "src/Model/Scheme/include/Implicitboxscheme.hpp:evaluate_point"]}
{"id": "C136", "title": "Stationary gas does not flow in circles", "statement": "In a stationary state that satisfies all equations of a network without compressors (control valves being passed in their direction with a non-negative control) and with gas slower than sound, every gas node has one pressure, which falls strictly along the flow in pipes and never rises along the flow. Hence gas that has passed a pipe never returns to its start along the flow, and if no gas enters or leaves the network there is no flow in any pipe.", "quantifier": "all networks, whatever their graph, all stationary states, all boundary values", "why_tests_cant": "The number of ways through a network is unbounded and cycles can have any length; tests look at single networks.", "anchors": ["src/Model/Networkproblem/Networkproblem.cpp:evaluate", "src/Model/Networkproblem/Gas/Pipe.cpp:evaluate", "src/Model/Networkproblem/Gas/Gasnode.cpp:evaluate_flow_node_balance"]}
{"id": "C137", "title": "A passive grid never delivers more active power than it gets", "statement": "If the conductance of each power node is what its lines need plus a conductance to the ground, the active powers of all nodes sum up to the losses in the ground conductances and in the lines, where a line loses its conductance times the squared distance of the complex voltages at its ends. If no ground conductance is negative and every line conductance has the sign of a passive line, the sum is never negative.", "quantifier": "every grid with these conductances and every state", "why_tests_cant": "all topologies and states", "anchors": ["src/Model/Networkproblem/Power/Powernode.cpp:P"]}
{"id": "C138", "title": "Numbers that do not fit into Ipopt's index type are refused", "statement": "Ipopt is told the true numbers of controls, constraints and Jacobian entries and gets the true row and column indices, none of them changed by the conversion to 32 bits; if one of these numbers is too large, the problem is refused.", "quantifier": "every number of controls and constraints per time, every pair of sorted time grids", "why_tests_cant": "networks and grids of any size, in particular those with more than 2^31 entries", "anchors": ["src/IpoptWrapper/Wrapper.cpp:get_nlp_info", "src/IpoptWrapper/ConstraintJacobian.cpp:supply_indices"]}
{"id": "C139", "title": "A simulated process covers the whole time from start to end evenly", "statement": "The program that simulates an Ornstein-Uhlenbeck process writes the mean at the start time and then one value per step of time, at times that divide the time from start to end into equal steps and reach the end; the steps are the wished ones or are subdivided until they are stable, and all values are within the cut-off.", "quantifier": "every start before every end, every positive number of steps, all parameters of the process, every random sequence", "why_tests_cant": "times, parameters and random numbers range over infinite sets; whether the last row is lost depends on rounding", "anchors": ["helper_functions/oup.cpp:main", "src/Auxillary/Stochastics/Stochastic.cpp:compute_stable_number_of_oup_steps", "src/Auxillary/Stochastics/include/Stochastic.hpp:euler_maruyama_oup"]}
{"id": "C140", "title": "Positions are copied to the components with the same id", "statement": "Inserting the positions of one file into the topology of another gives every component of a type that both files have the position of the component with the same id, whatever the order of the components in the two files, and changes nothing else about it; types without positions keep their components; if a position is missing, there is an exception.", "quantifier": "every topology and every file of positions with any classes and types, whose components have distinct ids, in any order", "why_tests_cant": "lists of any length, any ids, any order", "anchors": ["helper_functions/insert_positions.cpp:insert_positions", "helper_functions/insert_positions.cpp:sort_json_vectors_by_id"]}
{"id": "C141", "title": "Views of the caller's memory", "statement": "A mapped interpolating vector has no values of its own: what is read through it is at every moment what is in the caller's array, and what is written through it is written to this array at the place of the time step and nowhere else, with the same outcome as on a vector that owns its values. Owning vectors (also copies of views) are not affected by anything done to other vectors or arrays. Every call that would change a read-only view throws and changes nothing; a view is only made of an array of the right size.", "quantifier": "all contents of memory, all vectors with arbitrarily overlapping views, all histories of calls, of changes by the caller, of redirections and of copies", "why_tests_cant": "Whether something that is not the target of a call changes depends on which cells are shared, for every history; tests look at a single vector.", "anchors": ["src/Auxillary/InterpolatingVector/InterpolatingVector.cpp:MappedInterpolatingVector", "src/Auxillary/InterpolatingVector/InterpolatingVector.cpp:ConstMappedInterpolatingVector", "src/Auxillary/InterpolatingVector/InterpolatingVector.cpp:reset_values"]}
{"id": "C142", "title": "Editors accept exactly the values the program reads", "statement": "The schemas generated for files of initial values, boundary values and controls accept exactly the files with both sections in which only types with such values have entries of the right form. For every component of a network that the program reads: the schema for initial values accepts an entry under the type of the component exactly if the component reads it; the same for the schema for controls and entries which list times and values. Components without state or control have no place in these files.", "quantifier": "all defaults for which schemas are generated, all files, all networks that are read, all their components, all entries", "why_tests_cant": "The files and networks are unbounded, and two different parts of the program must agree about each of them.", "anchors": ["src/Model/Componentfactory/Componentfactory.cpp:get_initial_schema", "src/Model/Componentfactory/Componentfactory.cpp:get_control_schema", "src/Model/Componentfactory/Componentfactory.cpp:get_boundary_schema", "src/Auxillary/json_schema/schema_generation.cpp:make_full_factory_schemas"]}
{"id": "C143", "title": "Views of Jacobians", "statement": "A constraint Jacobian that looks at the caller's array has no values of its own: setting it to zero or to ones, assigning another Jacobian of the same shape and changing the block of one control has the same effect on the matrix as on a Jacobian with its own values, changes only the cells of the array that belong to it (for a block: to the block), and what is read is always what is in the array. A view without an array throws whenever its values are needed. After the array is replaced, the new one is used and the old one is left alone. The array that Ipopt supplies then has, position by position, the entries of the matrix at the indices Ipopt was told. Two Jacobians are equal exactly if shapes and values are.", "quantifier": "all numbers of constraints and controls, all sorted times, all contents of memory, all arrays and other objects, overlapping or not, all calls", "why_tests_cant": "Shapes and contents are unbounded, and whether a cell changes that is not the target depends on every overlap.", "anchors": ["src/IpoptWrapper/ConstraintJacobian.cpp:MappedConstraintJacobian", "src/IpoptWrapper/ConstraintJacobian.cpp:replace_storage", "src/IpoptWrapper/ConstraintJacobian.cpp:get_column_block", "src/IpoptWrapper/ImplicitOptimizer.cpp:evaluate_constraint_jacobian"]}
{"id": "C144", "title": "An optimization that ends writes its results", "statement": "If an optimization problem has been set up, Ipopt has returned and the states for the controls it returned can be computed, the files of controls and of states are written.", "quantifier": "all problems, with or without constraints, all vectors Ipopt may return", "why_tests_cant": "All problems and all vectors; the results of long computations are at stake.", "anchors": ["src/Grazer/commands.cpp:run", "src/IpoptWrapper/ConstraintJacobian.cpp:MappedConstraintJacobian"]}
{"id": "C145", "title": "The comparison with a reference keeps the largest discrepance", "statement": "If the helper program computing discrepances is given results of runs with the same components, time steps, quantities and points as the reference, it ends well and writes for each of them the largest absolute difference from the reference over all runs, with the times of the first run.", "quantifier": "all references and nonempty sequences of runs, with any numbers of components, time steps, quantities and points", "why_tests_cant": "The result is accumulated over arbitrarily many files found in arbitrary order.", "anchors": ["helper_functions/compute_reference_discrepance.cpp:add_gas_json_data", "helper_functions/compute_reference_discrepance.cpp:add_power_json_data"]}
{"id": "C146", "title": "Components missing in the reference are refused", "statement": "If results of a run hold a component that the reference doesn't have, the helper program computing discrepances ends with an error and gives no result.", "quantifier": "all references, runs and positions of the component", "why_tests_cant": "Whether the component is noticed depends on the order of the ids and on the runs before.", "anchors": ["helper_functions/compute_reference_discrepance.cpp:add_gas_json_data", "helper_functions/compute_reference_discrepance.cpp:add_power_json_data"]}
{"id": "C147", "title": "The iterated friction factor solves the equation of Colebrook and White", "statement": "For Reynolds numbers from 4000 on and roughnesses up to the diameter, the friction factor computed by iteration solves the equation of Colebrook and White up to the tolerance 10^-12.", "quantifier": "all Reynolds numbers from 4000 on, diameters and roughnesses", "why_tests_cant": "It is about all real parameters, and a test with a single pipe and a wide tolerance doesn't notice that the iteration ends early.", "anchors": ["src/Model/Balancelaw/Isothermaleulerequation.cpp:exact_turbulent_lambda"]}
{"id": "C148", "title": "Converted boundary conditions keep the data of both quantities", "statement": "If a file gives two linear boundary conditions for a power node, for the two quantities of one of the types PQ, PV and Vphi, anywhere in the file and in any order, the converted file (boundaryprettyfy) gives the node this type, and for each time of one of the conditions both values (zero where a condition has none). A gas node with one condition keeps its data, an outgoing flow is negated; no node is invented or dropped.", "quantifier": "all lists of boundary conditions, all nodes, all data", "why_tests_cant": "the result for a node must not depend on the order or on the other conditions of the file; there are unboundedly many files", "anchors": ["helper_functions/boundaryprettyfy.cpp: main, getnodetype, getlintype, get_node_type_json"]}
{"id": "C149", "title": "No power node gets lost in the converted topology", "statement": "If each power node of the old topology has boundary conditions for the two quantities of a type, each power node is, after the conversion (boundaryprettyfy), in exactly the list of its type.", "quantifier": "all topologies and lists of boundary conditions", "why_tests_cant": "a statement about every file; lost nodes are only seen later, as missing ids in edges", "anchors": ["helper_functions/boundaryprettyfy.cpp: main, getnodetype"]}
{"id": "C150", "title": "The gas heat map shows the pressures", "statement": "The program draw_heatmap_gaslib paints each edge in the colour of its largest pressure, on a scale from the smallest to the largest (over edges and times) of the pressures in the results: if pressures of edges differ, an edge with the largest pressure is red.", "quantifier": "all results, all numbers of edges, times and points", "why_tests_cant": "the scale depends on all results, and a picture without error message looks right", "anchors": ["helper_functions/draw_heatmap_gaslib.cpp: main, extract_min_max_values, rgb_color"]}
{"id": "C151", "title": "The power heat map shows the active powers", "statement": "The program draw_heatmap_power paints each node in the colour of its own largest active power, on a scale from the smallest to the largest active power in the results.", "quantifier": "all results, all numbers of types, nodes and times", "why_tests_cant": "the colour of a node must not depend on the nodes before it, for all orders and numbers of nodes", "anchors": ["helper_functions/draw_heatmap_power.cpp: main, extract_min_max_values, rgb_color"]}
{"id": "C152", "title": "Colours of the heat maps are valid and ordered", "statement": "A value between the ends of the scale has a colour whose parts are between 0 and 255 and sum up to 255, a value outside gives an exception; the smallest value is blue, the largest red, and a larger value is never less red or more blue.", "quantifier": "all scales and values", "why_tests_cant": "the colour is a rounded function of real numbers", "anchors": ["helper_functions/draw_heatmap_gaslib.cpp: rgb_color", "helper_functions/draw_heatmap_power.cpp: rgb_color"]}
{"id": "C153", "title": "Objective of an optimization is a convex quadratic function of the compressor controls", "statement": "The number handed to Ipopt as objective, wherever it can be evaluated, is not negative, is convex in the variables, is multiplied by r squared when all variables are multiplied by r, depends only on the controls of compressors (control valves cost nothing), not even on those of the first control time if the second control time is not after the second time of the states, and is zero if all controls of compressors are zero and only if they are zero at all control times after the start that are times of states.", "quantifier": "All input files that fit together (see C101) and settings the reader accepts as an optimization problem, all points of the space of variables, all pairs of points and all factors.", "why_tests_cant": "Convexity and independence speak about all pairs of points in a space of arbitrary dimension; a test evaluates at a few points.", "anchors": ["src/IpoptWrapper/ImplicitOptimizer.cpp: ImplicitOptimizer::evaluate_objective", "src/Model/Networkproblem/Gas/Compressorstation.cpp: Compressorstation::evaluate_cost", "src/Model/Networkproblem/Networkproblem.cpp: Networkproblem::evaluate_cost"]}
{"id": "C154", "title": "Rounding changes the objective of an optimization only by a tiny factor", "statement": "With a rounding after each operation, as for double, the objective evaluated for given controls of compressors at the times of the states lies between (1-u)^(n+m+3) and (1+u)^(n+m+3) times the integral, by the trapezoidal rule, of the sum of the squares of the controls, where u is the unit of rounding, n the number of times and m the number of compressors. It is never negative, and for different times it is zero if and only if all controls after the first time are.", "quantifier": "All roundings with a relative error of at most u that are monotone and keep one half (round to nearest with 53 binary digits is one), all sorted lists of at least two times, all numbers of compressors and all controls.", "why_tests_cant": "Rounding errors depend on all bits of all inputs and accumulate over any number of time steps.", "anchors": ["src/IpoptWrapper/ImplicitOptimizer.cpp: make_objective_function_coefficients, ImplicitOptimizer::evaluate_objective, ImplicitOptimizer::evaluate_cost, ImplicitOptimizer::evaluate_penalty", "src/Model/Networkproblem/Networkproblem.cpp: Networkproblem::evaluate_cost", "src/Model/Networkproblem/Gas/Compressorstation.cpp: Compressorstation::evaluate_cost"]}
{"id": "C155", "title": "Numbers written as text with fixed decimals read back as the same numbers", "statement": "The text a number is turned into, with a given number of decimals, has exactly that many digits after the point and is wholly readable as a number; reading it yields the number again.", "quantifier": "every number and every number of decimals", "why_tests_cant": "Tests see finitely many numbers; rounding, carries (0.9999999999 becomes 1.000000000) and signs have to be right for all.", "anchors": ["src/Auxillary/Misc/Misc.cpp: to_string_precise", "src/Auxillary/Misc/include/Misc.hpp: to_string_precise"]}
{"id": "C156", "title": "Converting a file of values to texts changes the values and nothing else", "statement": "The program that turns numbers in a file of initial or boundary values into texts replaces the values of every data point of every node and connection by their texts in the same order, keeps everything else, and writes no file at all if a data point has missing or non-numeric values.", "quantifier": "all files of values, with any components, data points and values", "why_tests_cant": "Files are unbounded; a type or a data point the loop misses, or a half converted file, shows only for particular files.", "anchors": ["helper_functions/stringify_value_json.cpp: main"]}
{"id": "C157", "title": "A drawn seed is a faithful name for the entropy it was drawn from", "statement": "The seed that is reported after random entropy has been collected restores exactly the state of the entropy store it was taken from; for a store filled with a seed of its own size exactly this seed is reported; further entropy prefers no state of the store.", "quantifier": "every size of the store, every state of the store and all inputs of any length", "why_tests_cant": "There are 2^256 states of the store; the inverse computation (modular inverses by fast exponentiation, loops run backwards) is right for all or wrong for nearly all, but a test sees a few.", "anchors": ["Randutils/include/randutils.hpp: seed_seq_fe, mix_entropy, param, fast_exp", "src/Auxillary/Stochastics/Normaldistribution.cpp: make_random_seed"]}
{"id": "C158", "title": "Different seeds initialise random number generators differently", "statement": "Two runs with different seeds never initialise their random number generators with the same words, every initialisation is reached by exactly one seed, changing one word of the collected entropy changes the drawn seed, and seeds drawn in one process differ even if clock and addresses do not.", "quantifier": "all seeds, all numbers of words a generator asks for (at least eight), all entropy, all draws up to 2^31 in a process", "why_tests_cant": "A collision of two seeds among 2^256 cannot be found by trying.", "anchors": ["Randutils/include/randutils.hpp: seed_seq_fe::generate, auto_seeded::local_entropy", "src/Auxillary/Stochastics/Normaldistribution.cpp: make_random_seed, setup_random_number_generator"]}
{"id": "C159", "title": "Pictures of networks are complete", "statement": "The programs drawing gas or power networks and their heat maps draw every node and every edge of the network of that kind once, and every line ends in nodes of the picture.", "quantifier": "all topologies with positions, all numbers of nodes and edges of each type, all factors", "why_tests_cant": "a test draws a few networks; a type that is missing in a list only shows with a network containing it", "anchors": ["helper_functions/draw_gaslib_graph.cpp:main", "helper_functions/draw_power_graph.cpp:main", "helper_functions/draw_heatmap_gaslib.cpp:main", "helper_functions/draw_heatmap_power.cpp:main"]}
{"id": "C160", "title": "Pictures of networks are true to scale", "statement": "The pictures of networks are centred, and the distances of nodes are those of the topology divided by the given factor, by default ten.", "quantifier": "all topologies with positions, all factors other than zero", "why_tests_cant": "positions depend on the mean of all positions; a test checks a few networks", "anchors": ["helper_functions/draw_gaslib_graph.cpp:main", "helper_functions/draw_power_graph.cpp:main", "helper_functions/draw_heatmap_gaslib.cpp:main", "helper_functions/draw_heatmap_power.cpp:main"]}
{"id": "C161", "title": "The legend of a heat map stands beside the network", "statement": "The legend of a heat map is to the right of all nodes, by a tenth of the width, and reaches from the lowest to the highest node.", "quantifier": "all topologies with positions and at least one node that is drawn, all factors", "why_tests_cant": "depends on the extreme positions of all nodes and on where the search for them starts", "anchors": ["helper_functions/draw_heatmap_gaslib.cpp:main", "helper_functions/draw_heatmap_power.cpp:main"]}
{"id": "C162", "title": "Mean and deviation over whole result files", "statement": "If all result files that get_mean_sigma uses (those in the directory whose names begin with the given text and that are not hidden) hold the same components, time steps, quantities and points, with components sorted by id, then the program ends well and its output holds, for each quantity of each component of the considered types at each time step (for gas components at each point), the arithmetic mean and the sample standard deviation of this very quantity over all these files, with ids and times of the first file, and nothing else.", "quantifier": "all directories, file names, numbers of files, components, time steps, quantities, points and values", "why_tests_cant": "Lookup by bisection, incremental updates and the interplay of number of runs and first occurrence must be right for every layout and every number of files; tests show a few files.", "anchors": ["helper_functions/get_mean_sigma.cpp: main, add_power_json_data, add_gas_json_data, new_mean, new_sigma"]}
{"id": "C163", "title": "Quantiles over whole result files", "statement": "If all files in the directory given to get_quantiles (but hidden ones) hold the same components, time steps, quantities and points, then the program ends well and writes for each quantity of each component of the considered types at each time step (for gas components at each point) a median and three intervals of values of this very quantity in these files: they enclose each other, and at least one half, three quarters and nine tenths of the values lie in them.", "quantifier": "all directories, numbers of files, components, time steps, quantities, points and values", "why_tests_cant": "Indices are computed by rounding and depend on the number of files; which numbers of files make them wrong or out of range cannot be found by a few tests, nor can lookups for all layouts.", "anchors": ["helper_functions/get_quantiles.cpp: main, add_power_json_data, add_gas_json_data, compute_actual_quantiles_power, compute_actual_quantiles_gas, make_quantiles"]}
{"id": "C164", "title": "Old initial values become numbers", "statement": "Converting a file of initial values in the old format, in which numbers are written as strings (boundaryprettyfy), replaces each position and each value, in a list or alone, by the number it stands for and changes nothing else.", "quantifier": "every list of conditions, with one data point or any list of them, every way of reading numbers from strings", "why_tests_cant": "files of any size and shape; what happens depends on the form of each value", "anchors": ["helper_functions/boundaryprettyfy.cpp:main"]}
{"id": "C165", "title": "The stationary state of a pipe is determined by flow and pressure where the gas leaves", "statement": "If two stationary states of a pipe, both slower than sound, have the same flow and the same pressure at the end to which the gas flows, they are the same at every point of the pipe: no search for a stationary state can find two answers.", "quantifier": "all pipes with a real diameter and roughness, all numbers of points and cell widths, all pairs of subsonic stationary states with positive density", "why_tests_cant": "Tests solve for one state from one starting value; that no other solution exists is a statement about all states.", "anchors": ["src/Model/Balancelaw/Isothermaleulerequation.cpp:flux,source", "src/Model/Scheme/include/Implicitboxscheme.hpp:evaluate_point"]}
{"id": "C166", "title": "The stationary state of a pipe is determined by flow and pressure where the gas enters", "statement": "If two stationary states of a pipe, both slower than sound, have the same flow and the same pressure at the end from which the gas comes, they are the same at every point of the pipe.", "quantifier": "all pipes with a real diameter and roughness, all numbers of points and cell widths, all pairs of subsonic stationary states with positive density", "why_tests_cant": "Whether there is a second solution depends on the width of the cells; tests take one width and one starting value.", "anchors": ["src/Model/Balancelaw/Isothermaleulerequation.cpp:flux,source", "src/Model/Scheme/include/Implicitboxscheme.hpp:evaluate_point"]}
{"id": "C167", "title": "The stationary state of a gas network without circles is determined by its boundary values", "statement": "In a gas network without circles and with one pressure node the boundary values determine the flow in every edge of a stationary state. Together with the controls they determine its whole state, if the gas is slower than sound with the friction over half a cell to spare: two stationary states that solve the equations agree in every value of every edge.", "quantifier": "all admissible networks of pipes, short pipes, compressors and control valves without circles that hang together with their one pressure node, all boundary values and controls, all pairs of stationary states with positive densities in the pipes", "why_tests_cant": "Tests solve single networks from single starting values; that there is no second solution is a statement about all states and all networks.", "anchors": ["src/Model/Networkproblem/Networkproblem.cpp:evaluate", "src/Model/Networkproblem/Gas/Gasnode.cpp:evaluate_flow_node_balance", "src/Model/Networkproblem/Gas/Pipe.cpp:evaluate", "src/Model/Networkproblem/Gas/Shortcomponent.cpp"]}
{"id": "C168", "title": "Names of output directories tell the order of runs", "statement": "The output directory of a run that starts later has a name that comes later in the order of strings, and runs that start at different milliseconds have different names.", "quantifier": "all pairs of times in milliseconds and all calendars by which later seconds have later broken-down times", "why_tests_cant": "Whether the order is right depends on the digits of both times; a test takes a few times.", "anchors": ["src/Auxillary/Input_Output/Input_output.cpp:millisecond_datetime_timestamp", "src/Grazer/commands.cpp:run"]}
{"id": "C169", "title": "The equations of a pipe are the isothermal Euler equations with friction", "statement": "In terms of density, velocity and pressure, mass flows with the velocity, momentum flux is pressure plus density times velocity squared, pressure and density obey the law of real gases with the compressibility factor of the American Gas Association, and the only source is friction after Darcy and Weisbach in a pipe with circular cross section, with the friction factor 64/Re in laminar flow, that of Swamee and Jain in turbulent flow and a cubic polynomial that joins them in between.", "quantifier": "all pipes with a real diameter and roughness, all positive densities, all flows", "why_tests_cant": "The formulas are written in other variables and with combined constants; tests compare single values with values from the same formulas.", "anchors": ["src/Model/Balancelaw/Isothermaleulerequation.cpp:flux,source,p,Reynolds,lambda_non_laminar,Swamee_Jain", "src/Auxillary/Mathfunctions/Mathfunctions.cpp:circle_area"]}
{"id": "C170", "title": "The schema for the problem file fits the program", "statement": "The schema which the command for schemas writes for problem_data.json accepts every problem file that the program reads, and for every problem file it accepts there are other files with which the program gets through reading. If it accepts a problem file, the settings in it are used as they are written.", "quantifier": "all problem files (any json), all other files of a problem", "why_tests_cant": "A test validates one file; the claim is about all jsons on both sides, and the example files of the repository are in the layout the program reads and not in that of the schema.", "anchors": ["src/Auxillary/json_schema/schema_generation.cpp:get_problem_data_schema", "src/Grazer/commands.cpp:run", "src/Auxillary/json_schema/schema_generation.cpp:make_schemas"]}
{"id": "C171", "title": "A pipe has a stationary state for every delivery", "statement": "For every flow, and every pressure at the end to which the gas flows at which it is slower than sound, the equations of a pipe have exactly one stationary state slower than sound at every point; pressures do not rise in the direction of the flow.", "quantifier": "all real pipes, all numbers and widths of cells, all flows and pressures of delivery slower than sound", "why_tests_cant": "A test computes one pipe; existence for all pipes and deliveries (and that it ends at a largest pressure of the gas law) needs a proof.", "anchors": ["src/Model/Scheme/include/Implicitboxscheme.hpp:evaluate_point", "src/Model/Balancelaw/Isothermaleulerequation.cpp:source", "src/Model/Balancelaw/Isothermaleulerequation.cpp:p"]}
{"id": "C172", "title": "Friction grows with the flow", "statement": "At every positive density, for every pipe with a roughness between zero and its diameter, a larger flow always meets a larger friction: the momentum part of the source of the isothermal Euler equations is strictly decreasing in the flow, over laminar, transitional and turbulent flow and in both directions.", "quantifier": "all pipes (diameter at least 10^-11 m, roughness between 0 and the diameter), all positive densities, all pairs of flows", "why_tests_cant": "A real-analytic claim over a continuum of pipes and flows; the friction factor itself is not monotone, and the join between the regimes uses a derivative that is not the derivative of the formula, so that sampled flows say nothing about the transition.", "anchors": ["src/Model/Balancelaw/Isothermaleulerequation.cpp: source, lambda_non_laminar, Swamee_Jain, get_coefficients"]}
{"id": "C173", "title": "More delivery takes more supply", "statement": "Of two stationary states of the same pipe, slower than sound (one of them with the friction over half a cell to spare), the one with at least the flow and at least the pressure at the end to which the gas flows has at least the pressure at every point; if its flow or its delivery pressure is larger, its pressure is larger at every other point, in particular where the gas enters.", "quantifier": "all pipes, widths and numbers of cells, all pairs of stationary states that are slower than sound", "why_tests_cant": "Compares all pairs of solutions of a nonlinear system of equations of any size.", "anchors": ["src/Model/Balancelaw/Isothermaleulerequation.cpp: flux, source", "src/Model/Scheme/include/Implicitboxscheme.hpp: evaluate_point"]}
{"id": "C174", "title": "The flow through a pipe is determined by the pressures at its ends", "statement": "In stationary states of a pipe that are slower than sound (with the friction over half a cell to spare), the flow grows strictly with the pressure at the left end and falls strictly with the pressure at the right end. Two such states with the same pressures at both ends agree at every point.", "quantifier": "all pipes, all widths and positive numbers of cells, all pairs of stationary states", "why_tests_cant": "Compares all pairs of solutions of a nonlinear system of equations of any size.", "anchors": ["src/Model/Balancelaw/Isothermaleulerequation.cpp:flux,source", "src/Model/Scheme/include/Implicitboxscheme.hpp:evaluate_point"]}
{"id": "C175", "title": "The stationary state of a gas network with circles is determined by its boundary values and controls", "statement": "If every gas edge of a network is joined to a node with given pressure, then two stationary states that solve the equations of a time step for the same boundary values and the same controls, and are slower than sound with the friction over half a cell to spare, have the same pressures at all ends of edges and the same state in every pipe, also if the network has circles and several pressure nodes. If moreover no short pipes, compressors and control valves alone form a circle or a way between pressure nodes, the states agree completely.", "quantifier": "all networks of gas nodes, pipes, short pipes, compressors and control valves, all boundary values and controls, all pairs of stationary states", "why_tests_cant": "Ranges over all graphs and all pairs of solutions of a nonlinear system; a solver that finds one solution says nothing about others.", "anchors": ["src/Model/Networkproblem/Gas/Gasnode.cpp:evaluate_flow_node_balance", "src/Model/Networkproblem/Gas/Pipe.cpp:evaluate", "src/Model/Networkproblem/Gas/Shortpipe.cpp:evaluate"]}
{"id": "C176", "title": "More inflow and more prescribed pressure never lower a pressure of a gas network", "statement": "Take two stationary states that solve the equations of a time step for the same network and controls, at two times whose prescribed pressures and inflows may differ, both slower than sound with the friction over half a cell to spare, in a network in which every gas edge is joined to a node with given pressure. If no prescribed pressure and no prescribed inflow is smaller at the second time (so no sink takes more), no pressure at an end of a gas edge is smaller.", "quantifier": "all networks of gas nodes, pipes, short pipes, compressors and control valves with or without circles, all pairs of boundary values, all pairs of stationary states", "why_tests_cant": "Ranges over all graphs, all boundary values and all pairs of solutions of a nonlinear system.", "anchors": ["src/Model/Networkproblem/Gas/Gasnode.cpp:evaluate_flow_node_balance", "src/Model/Networkproblem/Gas/Pipe.cpp:evaluate", "src/Model/Networkproblem/Gas/Shortpipe.cpp:evaluate"]}
{"id": "C177", "title": "Circles of short edges make every time step ambiguous and every linear system singular", "statement": "If a network contains a circle of short pipes, compressors and control valves alone, or a way of these between two nodes with given pressure, then one of these edges can carry any flow: a time step that has a solution has one for every flow in this edge, with the same pressures. The matrix of the linear systems in Newton's method is singular at every time and in every state. A stationary state as in C175 is the only one if and only if there is no such circle.", "quantifier": "all networks of all component types, all boundary values, controls, times and states", "why_tests_cant": "Ranges over all graphs with such a circle and all states; a test that fails to converge does not show that no state would work.", "anchors": ["src/Model/Networkproblem/Gas/Shortcomponent.cpp", "src/Model/Networkproblem/Gas/Shortpipe.cpp:evaluate", "src/Model/Networkproblem/Gas/Gasnode.cpp:evaluate_flow_node_derivative", "src/Model/Networkproblem/Networkproblem.cpp:d_evaluate_d_new_state"]}
{"id": "C178", "title": "A part of the power grid without prescribed angle makes every time step ambiguous and every linear system singular", "statement": "If the angle is prescribed at no node of a connected part of the power grid (the part contains no Vphinode and no power plant), a time step that has a solution has one for every value of the angle at a node of the part, with the same voltages, gas pressures and flows and the same angles elsewhere. The matrix of the linear systems in Newton's method is singular at every time and in every state.", "quantifier": "all networks of all component types, all boundary values, controls, times and states", "why_tests_cant": "Ranges over all grids with such a part and all states; a test that fails to converge does not show that no state would work.", "anchors": ["src/Model/Networkproblem/Power/Powernode.cpp:P", "src/Model/Networkproblem/Power/Powernode.cpp:evaluate_P_derivative", "src/Model/Networkproblem/Power/PQnode.cpp:evaluate", "src/Model/Networkproblem/Power/PVnode.cpp:evaluate", "src/Model/Networkproblem/Networkproblem.cpp:d_evaluate_d_new_state"]}
{"id": "C179", "title": "A part of short edges without prescribed pressure makes every time step ambiguous and every linear system singular", "statement": "If a part of the gas network consists of short pipes, compressors, control valves and connections to power plants only, is attached to no pipe and contains no node with prescribed pressure, then the pressure level in it is free: a time step that has a solution has, for every number, one in which this number is added to all pressures of the part and nothing else changes. The matrix of the linear systems in Newton's method is singular at every time and in every state.", "quantifier": "all networks of all component types, all boundary values, controls, times and states", "why_tests_cant": "Ranges over all graphs with such a part and all states; a test that fails to converge does not show that no state would work.", "anchors": ["src/Model/Networkproblem/Gas/Shortcomponent.cpp", "src/Model/Networkproblem/Gas/Gasnode.cpp:evaluate_flow_node_derivative", "src/Model/Networkproblem/Gas/Compressorstation.cpp:evaluate", "src/Model/Networkproblem/Networkproblem.cpp:d_evaluate_d_new_state"]}
{"id": "C180", "title": "In a network of short edges a time step has exactly one solution iff the graph allows it, and one Newton iteration finds it", "statement": "In a gas network that consists of short pipes, compressors and control valves only, the matrix of the linear systems is the same at every time and in every state. It is regular, and every time step has exactly one solution, if and only if there is no circle of edges, no way between two nodes with prescribed pressure, and every part contains a node with prescribed pressure. In that case the Newton solver succeeds from every guess after at most one undamped iteration, in both modes and for every tolerance, and simulations succeed for all times, boundary values, controls and initial states, without retries.", "quantifier": "all networks of short pipes, compressors and control valves, all boundary values, controls, times, guesses, tolerances and numbers of steps", "why_tests_cant": "Equivalence between a property of the graph and the unique solvability for all boundary values and controls.", "anchors": ["src/Model/Networkproblem/Gas/Shortcomponent.cpp", "src/Model/Networkproblem/Gas/Compressorstation.cpp:evaluate", "src/Model/Networkproblem/Gas/Controlvalve.cpp", "src/Model/Networkproblem/Gas/Gasnode.cpp:evaluate_flow_node_derivative", "src/Newtonsolver/Newtonsolver.cpp:solve", "src/Model/Problemlayer/Timeevolver.cpp:simulate"]}
{"id": "C181", "title": "In a network of short edges the optimization problem is convex", "statement": "If a gas network consists of short pipes, compressors and control valves only, without circles of edges or ways between nodes with prescribed pressure, and each part contains a node with prescribed pressure, then the states depend on the controls in an affine way: the states, and the constraint values given to the optimizer, for a mean of two settings of the controls are the means of those for the two settings, up to a multiple of the solver tolerance that depends on the network only. Every setting of the controls can be evaluated. If the equations are solved exactly, means of feasible settings are feasible and every local optimum is a global optimum.", "quantifier": "all such networks, all input files that describe them, all settings, bounds, controls and tolerances (tolerance 0 for the claim on optima)", "why_tests_cant": "Compares all pairs of control settings and all their means, and local with global optima of every such problem.", "anchors": ["src/IpoptWrapper/ImplicitOptimizer.cpp", "src/Model/Networkproblem/Gas/Compressorstation.cpp:evaluate", "src/Model/Networkproblem/Gas/Controlvalve.cpp", "src/Model/Networkproblem/Gas/Shortcomponent.cpp", "src/Model/Networkproblem/Gas/ConstraintSink.cpp"]}
{"id": "C182", "title": "Cached derivatives of the equations belong to the asked controls and states", "statement": "Whatever was asked before, the cache for derivatives of the equations returns factorizations of the derivatives by the new state and the derivatives by the last state and by the controls that belong, in every time step, to the controls and states of the call.", "quantifier": "all problems, all sequences of calls, all numbers of time steps", "why_tests_cant": "The content of the cache depends on the whole history of calls, including calls that ended with an exception.", "anchors": ["src/Optimization_helpers/EquationDerivativeCache.cpp:compute_derivatives", "src/Optimization_helpers/EquationDerivativeCache.cpp:initialize_derivatives", "src/Optimization_helpers/EquationDerivativeCache.cpp:update_derivatives", "src/Optimization_helpers/include/Cacheentry.hpp:Cacheentry", "src/Auxillary/Matrixhandler/Matrixhandler.cpp:Triplethandler"]}
{"id": "C183", "title": "Detaching an edge from a node", "statement": "In a network built from files, detaching an edge from a node succeeds if and only if the edge starts or ends at this node. Afterwards the node has exactly its other edges, in the same order; its id and data are unchanged. A second attempt fails and changes nothing. A network one of whose edges has been detached from one of its ends is rejected when it is constructed.", "quantifier": "all files from which a network is built, all nodes, all edges", "why_tests_cant": "the order and number of the attached edges depend on the files; no finite set of networks covers all of them", "anchors": ["src/Model/Network/Node.cpp:remove_edge", "src/Model/Network/Net.cpp:Net"]}
{"id": "C184", "title": "An optimization in which Ipopt gives no solution", "statement": "If Ipopt cannot be initialised, refuses the problem because it has too many variables, constraints or entries of the Jacobian, or gives up before it has a solution, then grazer run ends with an error and writes no results. Otherwise the vector Ipopt found is the one whose controls and states are written.", "quantifier": "all optimization problems that can be set up, all answers of Ipopt", "why_tests_cant": "the failures depend on Ipopt's installation and on the size of the problem, which tests cannot produce", "anchors": ["src/IpoptWrapper/Adaptor.cpp:optimize", "src/IpoptWrapper/Wrapper.cpp:get_nlp_info", "src/IpoptWrapper/Wrapper.cpp:finalize_solution", "src/Grazer/commands.cpp:run"]}
{"id": "C185", "title": "Output files named by the clock", "statement": "The name generated for a file at a time belongs to this file and this millisecond only: no other file and no other time gives the same path; directory and extension of the file are kept. Preparing an output file creates one new empty file output/output_<milliseconds>.json and changes nothing else but creating the directory; it fails exactly if output is there and no directory, or if each of ten names is taken or cannot be opened. From September 2001 to November 2286 the order of these names is the order of the times.", "quantifier": "all file names except '..', all times since 1970, all contents of the directory, all readings of the clock", "why_tests_cant": "collisions of names are a matter of all pairs of names and times", "anchors": ["src/Auxillary/Input_Output/Input_output.cpp:attach_epoch_count", "src/Auxillary/Input_Output/Input_output.cpp:create_new_output_file", "src/Auxillary/Input_Output/Input_output.cpp:prepare_output_file"]}
