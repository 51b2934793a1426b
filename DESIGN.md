# Formal model of grazer in Lean 4 — design

## Conventions

* Each area of the code has a directory `lean/Verif/<Area>/`: definitions that transcribe the C++ (each one cites file and
  lines in /repo, and says where it simplifies), lemmas, and the property theorems. The names of property theorems begin
  with the id of the property. The specification predicates they use are defined in the same file, under the heading
  "Specification" or with that word in their comment. Beside each theorem there is an `example` (or a file `…Example.lean`)
  that shows that its hypotheses are met by a concrete, non-trivial case.
* Undefined behaviour and exceptions are distinct outcomes: `Res.ok a`, `Res.throws`, `Res.ub` (`Verif/Basic/Res.lean`). An
  out-of-bounds read is `Res.ub`, never a default value.
* `double` is modelled by an ordered field (ℚ, ℝ or any linearly ordered field), that is, exact arithmetic: rounding,
  overflow and (unless stated) NaN are not modelled. The Newton solver model has an explicit NaN, because its control flow
  depends on it; the stochastic model treats the division by zero steps explicitly.
* `int`, `Eigen::Index`, `size_t` are modelled by ℤ or ℕ without overflow (except where the overflow is the point: C58).
* A property that the code violates is recorded as a theorem with suffix `_false` (negation with a concrete witness) next to
  the strongest true version, which carries the suffix `_partial`.

## Trusted base

* The kernel of Lean 4.33.0. All theorems depend on no axioms but `propext`, `Classical.choice` and `Quot.sound` (Lean's
  standard axioms, as used by Mathlib); some depend on fewer. There is no `sorry`, no `native_decide`, no `bv_decide`, and no
  axiom of our own. `decide +kernel` is used for finite tables (the units, the type names) and for concrete examples and
  witnesses; it is evaluated by the kernel.
* Mathlib as installed; it is checked by the same kernel.
* The transcription from C++ to Lean, done by reading. Comments cite the modelled lines.
* External libraries (Eigen, nlohmann::json, the json schema validator, Ipopt, the C++ standard library, the file system) are
  modelled by their documented behaviour. Where possible, they are parameters about which nothing or little is assumed: the
  linear solver and the random number generator are arbitrary functions; of the schema validator it is only assumed (in C71)
  that it rejects objects without a required key. `Schema/Validate.lean` defines a validator for the keywords that occur in
  the schemas of values, and C77 and C78 are about this one; it meets the assumption (`accepts_enforces`).

## Which parts of the code are modelled

| code | model |
|------|-------|
| `Auxillary/InterpolatingVector` | `Interp` (values), `Interp/Views.lean` (mapped vectors and the memory they share) |
| `Optimization_helpers/Optimization_helpers.cpp` | `IndexLambda`, `Weights`, `OptTimes` |
| `Optimization_helpers/ControlStateCache.cpp` | `OptState` |
| `IpoptWrapper/ConstraintJacobian.cpp`, `Wrapper.cpp` `get_nlp_info`, `commands.cpp` 228-246 | `Jacobian` |
| `IpoptWrapper/ImplicitOptimizer.cpp` | `OptState` (evaluation and caching), `Adjoint` (derivatives), `OptTimes` (constraint times), `Network/Storage` (reused matrices) |
| `Newtonsolver` | `Newton` |
| `Model/Problemlayer/Timeevolver.cpp` | `Evolve` |
| `Grazer/commands.cpp` 251-300 (end of an optimization), `Wrapper.cpp` `finalize_solution` | `OptState` (Finish) |
| `Auxillary/Timedata`, time grids of `Grazer/commands.cpp` | `Times` |
| interpolation, time grids, the objective and the program `oup.cpp` in rounded arithmetic | `Float` |
| `Auxillary/Matrixhandler` | `Handler`, `Net` |
| `Auxillary/Mathfunctions` | `SmoothAbs` |
| `Model/Balancelaw` | `Euler` |
| `Model/Scheme` (implicit box scheme) | `Box` |
| `Model/Networkproblem/Gas`, `Gaspowerconnection`, `Power` | `Gas`, `Power` |
| `Model/Networkproblem/Networkproblem.cpp`, `Componentclasses` | `Network`, `Initial` |
| `Model/Componentfactory`, `Model/Netfactory`, `Model/Network` | `Graph`, `Json` |
| constructors, schemas and tables of all component types (`Gas_factory.cpp`, `Power_factory.cpp`, `Full_factory.cpp`) | `Read` |
| `Grazer/commands.cpp` 74-145 (a run without optimization up to states.json), `Grazer/helpers.cpp` `setup_controls` | `Read` (Run, Output) |
| `Auxillary/json_schema/schema_generation.cpp`, the schemas of files in `Componentfactory.cpp` | `Editor` |
| `Auxillary/json_schema/schema_key_insertion.cpp`, `make_schemas` | `Files` (InsertKey, MakeSchemas) |
| `Grazer/commands.cpp` (set-up of an optimization), `IpoptWrapper/Wrapper.cpp` (bounds, starting point, values and derivatives) | `Read` (Nlp) |
| `Auxillary/json_schema` (defaults, required keys; schemas of initial values, boundary values and controls) | `Json`, `Schema` |
| `Randutils/include/randutils.hpp` (`seed_seq_fe`, the counter of `auto_seeded`) | `Stochastic` (SeedSeq) |
| `helper_functions/insert_positions.cpp` (lists of one type) | `Json` (Positions) |
| `Auxillary/unit_conversion` | `Unit` |
| `Auxillary/Input_Output`, `overwrite_json` | `Files` |
| `Auxillary/Stochastics`, `StochasticPQnode` | `Stochastic`, `Power` |
| `Grazer/commands.cpp` `run` and `Grazer/grazer.cpp` 31-94 as steps in a shared file system, names of files, settings | `Command` |
| `Grazer/commands.cpp` 226-310 (the files written after an optimization) | `Read` (Replay) |
| `helper_functions` (the whole programs `get_mean_sigma.cpp` and `get_quantiles.cpp`, extraction of states, `generate_printing_csv.cpp`, `generate_control_printing_csv.cpp`, `change_inflow.cpp`, `increase_pressure.cpp`, `sum_outflow.cpp`, `move_to_category.cpp`, `stringify_value_json.cpp` and `to_string_precise`, `construct_gaspowerconnection.cpp`, `compute_reference_discrepance.cpp`, `boundaryprettyfy.cpp` for boundary conditions and power nodes, `draw_gaslib_graph.cpp`, `draw_power_graph.cpp`, `draw_heatmap_gaslib.cpp` and `draw_heatmap_power.cpp` without the texts around what is drawn) | `Helpers`, `Output` (also Csv) |
| `Optimization_helpers/EquationDerivativeCache.cpp` (commented out in its `CMakeLists.txt`) | `OptState` (EquationCache) |
| output of states and controls (`json_save`, `add_results_to_json`, `save_controls_to_json`) | `Output` |

Not modelled: rounding errors (except in `Float`, see below); Ipopt itself (`Adaptor.cpp` is modelled for C184; what `Wrapper.cpp` hands to Ipopt is modelled as a structure, `Read.Nlp`,
and Ipopt as an arbitrary function from it to a vector and a status, `Command.Libraries`); the sparse linear
algebra of Eigen (solves are exact or arbitrary); the
texts of descriptions in schemas; the
parsing of the command line (CLI11), what is printed on the terminal; the operating system beyond the steps of `Command.Machine` (permissions, links, crashes of the machine); the python, octave and latex helpers.

Rounding: `Float` models interpolation, time grids and the objective with a rounding after each operation, as in IEEE 754 (`Rounding`), proves that
round-to-nearest with 53 binary digits is such a rounding (`binary64`), and that without rounding the models are those of `Interp`
and `Times`. Overflow, underflow, infinities and NaN are left out there. A compiler that fuses operations is not covered.


## Plan per property

Status: p = proved, P = partial (a `_partial` theorem, and where the property is false, a `_false` theorem with a
witness). The exact theorem names are in `MANIFEST.json`.

| id | property | status | what is modelled | how it is proved |
|----|----------|--------|------------------|------------------|
| C01 | Interpolation is exact at its nodes | p | `InterpolatingVector_Base::operator()` on a list of points and a flat list of values; `lower_bound` as search in a sorted list | case analysis on the branches, list induction for `lower_bound` |
| C02 | Interpolation never overshoots | p | as C01 | affine formula on each cell, convexity |
| C03 | Evaluation range of interpolation | p | as C01 | exact characterisation of throwing; no `Res.ub` on non-empty grids |
| C04 | Timestep writes behave like an array of vectors | p | state = flat list; operations: write a step, read a step, write all | refinement to a function index → vector, induction over operation lists |
| C05 | Equidistant grids hit both ends and respect the wished step | p | `make_from_*`, `set_equidistant_interpolation_points` over a floor field | arithmetic with `Nat.ceil` |
| C06 | Unsorted interpolation points are rejected | P | three constructors, including the check on the moved-from vector | witness; proof for the other constructors |
| C07 | Equality and assignment of interpolating vectors | p | `operator==`, `have_same_structure`, `operator=` | case analysis |
| C08 | Time weights used in the adjoint agree with interpolation | p | `compute_index_lambda` and the model of C01 | both searches characterised by the same bracket |
| C09 | Jacobian sparsity indices are well formed | p | `ConstraintJacobian_Base`: `make_data` loop, getters, `supply_indices` | loop invariant of the two-pointer loop |
| C10 | Jacobian value array and index array agree | p | as C09, `whole_matrix` | flat index bijection |
| C11 | Jacobian sparsity contains every causal dependency | p | as C09 | loop invariant |
| C12 | Quadrature weights of the objective | p | `make_objective_function_coefficients` | list induction, telescoping sum |
| C13 | Evaluations do not depend on call history | p | the optimizer as a state machine (flags, cache, stored derivatives) over an abstract problem | invariant over all call histories |
| C14 | A failed evaluation reports failure and does no harm later | p | as C13 | invariant over all call histories |
| C15 | Objective gradient is the exact discrete gradient | p | backward sweep `compute_derivatives` with Mathlib matrices; the solution map of the discretised equations as specification | adjoint identity by induction over the time steps; `HasFDerivAt` by the implicit function theorem |
| C16 | Constraint Jacobian is the exact discrete Jacobian | P | as C15, with constraint times | as C15 |
| C17 | Constraint times must be state times | p | two-pointer loops over time lists, `Res.ub` for index −1 | loop invariant |
| C18 | Derivative sweep accesses constraint times in bounds only | P | as C17 | exact condition; witness |
| C19 | Final cost and penalty belong to the returned controls | P | as C13, `finalize_solution` | witness; proof for histories that announce the vector |
| C20 | Selection of constraint times | P | `ImplicitOptimizer` constructor: selection of constraint times | exact condition; witness |
| C21 | State cache returns the simulation of the asked controls | p | `ControlStateCache` | invariant over histories |
| C22 | A successful nonlinear solve meets the tolerance | P | Newton loop with an explicit NaN; arbitrary residuals and linear solves | loop induction; witnesses |
| C23 | Newton iterations | p | as C22 | loop induction |
| C24 | Time evolution solves every step or throws | p | `simulate`, `make_one_step` with an arbitrary solver | induction over steps and attempts |
| C25 | Bounded number of retries | p | as C24 | induction over attempts |
| C26 | Time grid of a simulation | P | `Timedata`, grids | arithmetic; witness |
| C27 | Matrix assembly is independent of the handler | p | matrix handlers as functions on entry lists | permutation-invariant sums |
| C28 | Smoothed absolute value | p | `smooth_abs`, `dabs_dx` | `HasDerivAt`, one-sided limits at the seams |
| C29 | Box scheme derivatives | p | implicit box scheme over an arbitrary balance law | calculus |
| C30 | Box scheme conserves | p | as C29 | telescoping sums |
| C31 | Pressure and density conversion | p | pressure and density | algebra over ℝ |
| C32 | Friction factor has no kinks at its seams | P | friction factor | one-sided derivatives at the seams |
| C33 | Derivative of the turbulent friction factor | P | `dSwamee_Jain_dRe` | `HasDerivAt`; negation for every pipe |
| C34 | Flux and source derivatives | P | flux and source of the isothermal Euler equations | `HasFDerivAt`; negation in turbulent flow |
| C35 | Gas node residual means equal pressures and Kirchhoff's law | p | gas nodes over index-addressed state vectors, `Res.ub` outside | list induction over attached ends |
| C36 | Gas node derivative | p | derivative entries of gas nodes | chain rule along arbitrary paths of states |
| C37 | Valves, compressors and short pipes | p | short pipe, control valve, compressor | algebra |
| C38 | Pipe discretisation | p | `Pipe`: number of points, residual, entries | arithmetic with ceil; C29 |
| C39 | As many equations as unknowns, each row written exactly once | p | `Networkproblem::evaluate` for arbitrary networks of all component types | counting rows, induction over component lists |
| C40 | State, control and constraint indices are a partition | p | index assignment in `Networkproblem::init` | induction over component lists |
| C41 | Power flow derivatives | p | `P`, `Q` and their entries | calculus |
| C42 | Power balance in the grid | p | all buses of a network | finite sums, pairing of line ends |
| C43 | Gas to power conversion | P | `Gaspowerconnection::q2p` | calculus; witness |
| C44 | Costs and their gradients use the same weights | p | cost and penalty of a network and their gradients | calculus, sums |
| C45 | Component lists are sorted and duplicates rejected | p | json trees; sorting and duplicate check | list induction |
| C46 | Every component receives its boundary data | P | two-pointer merge of json lists | list induction; witness |
| C47 | Missing initial data are detected | p | `check_initial…`, loading of initial values and controls | list induction |
| C48 | Network graph consistency | p | component factory, `Net` constructor | induction over jsons |
| C49 | The factory builds each listed component exactly once | p | component factory | induction over jsons |
| C50 | Defaults never overwrite user data | p | `apply_defaults` | structural induction over json trees |
| C51 | Defaulted keys are not required | p | `remove_defaults_from_required` | structural induction over schemas |
| C52 | Unit conversion | p | `unit_conversion.cpp`, `std::stod`, the regular expressions | finite tables lifted by lemmas on suffixes and spans |
| C53 | Overwriting a json file is crash safe | P | file system as a map, operations as atomic steps, crash = any reachable state | invariant over all reachable states; witnesses |
| C54 | Concurrent runs get distinct output directories | p | processes with atomic `mkdir`, interleaving with arbitrary other programs | invariant over all interleavings |
| C55 | Output files are never overwritten | p | the same with exclusive `fopen` | invariant over all interleavings |
| C56 | Output paths stay inside the root | P | path element lists, `lexically_normal`, 3-iterator `mismatch` with `Res.ub` | list induction; witness |
| C57 | Truncated normal samples respect their bounds | p | random numbers from an arbitrary generator | loop induction |
| C58 | Sub-step count of the stochastic process is stable | P | `compute_stable_number_of_oup_steps` with `int` overflow as `Res.ub` | arithmetic; witness |
| C59 | Stochastic process stays within its cut-off | P | `euler_maruyama_oup` | loop induction; witness |
| C60 | Reported stochastic demand is the one used | P | order of calls in `grazer::run`, member `current_P` | list induction; witness |
| C61 | Running mean and deviation | p | `get_mean_sigma.cpp` | induction over the runs, algebra |
| C62 | Quantile extraction stays in bounds | P | `get_quantiles.cpp` | arithmetic; all sample numbers below eleven |
| C63 | Extraction of a new initial condition picks the documented step | P | `extract_new_initial_condition.cpp` | list induction; witness |
| C64 | Initial values land in the right state entries | p | `set_initial_values` for single components and networks | induction over component lists |
| C65 | Sinks are negative sources | p | `revert_boundary_conditions`, `Sink` | structural induction over json trees |
| C66 | Reading interpolation data from json | p | constructor of `InterpolatingVector` from json | list induction |
| C67 | Resampling an interpolated vector | p | resampling | as C01 |
| C68 | Control times cover the simulated interval | P | control grid | arithmetic; witness |
| C69 | The Jacobian of a whole network is the derivative of its residual | P | `Networkproblem` derivative routines for arbitrary networks | C36, C37, C38, C41, C43 put together by index ranges; C69_false: a single pipe with fast flow, where the entry of the friction is wrong |
| C70 | The sparsity pattern of a network's Jacobian never changes | p | as C69 | induction over the list of entries |
| C71 | No network without boundary data | p | factory with schema validation as a parameter | induction over jsons |
| C72 | A solved time step obeys all physical laws | p | residual of a network; the physical laws as a separate structure | rows ↔ laws, using the partition of indices |
| C73 | The optimizer's derivatives for a network are exact | P | the optimizer of C15/C16 applied to networks | instantiation, using C69 and C44; false for turbulent flow: a network with a compressor, a pipe and a sink where the Jacobian is wrong, by the implicit function theorem |
| C74 | Constraints of sinks bound the pressure | P | `ConstraintSink` | C35; witness |
| C75 | No gas is created or lost | p | as C72 | summing the laws over the graph; induction over time steps |
| C76 | Every unit of a measure can be used | P | as C52 | finite tables; witness |
| C77 | Initial values that pass validation are read as written | p | `make_initial_schema`, `construct_from_json`, the schemas of the components; validation by the keywords of json schema draft 7 that occur | the schema is computed, then what it accepts is characterised keyword by keyword; C66 for reading, C64 for the state |
| C78 | Boundary values and controls that pass validation are read as written | P | `make_boundary_schema`, `construct_from_json` | as C77; witnesses of undefined behaviour |
| C79 | The file of states shows the computed states | p | `json_save` and `add_results_to_json` of all components with states and of the network; the loop that saves the states | invariants of the loops over time steps and components |
| C80 | Initial values extracted from results give back the saved state | p | as C79, `extract_new_initial_condition`, and C64, C77 for reading | what is extracted from an entry describes the points and values of the state (C79), is accepted by the schema and read back (C77), and set to the state |
| C81 | Controls written to a file and read again are the same | p | `save_controls_to_json`, `set_initial_controls` | as C79 and C80, with C78 for reading |
| C82 | A simulation can be stopped and continued | p | `Timeevolver::simulate` (C24); C80 | the time loop over an append is two loops, as the solver has no memory; C80 gives the state in between |
| C83 | Small residuals mean small violations of every law | p | as C72 | the values in the rows of every component, not only when they vanish; induction over the ends at a node |
| C84 | The gas balance of an inexactly solved simulation drifts by a bounded amount | p | as C75 | as C75 with the residuals kept; induction over the steps |
| C85 | Every state a simulation returns obeys the laws of physics up to the tolerance | p | `Timeevolver::simulate`, `Newtonsolver::solve`, `Networkproblem::evaluate` put together | instantiation of C24, then C83 and C84; no entry of a vector exceeds its norm |
| C86 | states.json and controls.json of an optimization belong together | P | `optimize` after Ipopt has returned, on the optimizer of C14 | unfolding; C14 for the case that some evaluation succeeded; `C86_false` for a failing starting point |
| C87 | The printed constraint violations are those of the solution | P | as C86, with the maxima | invariant of C14; greatest element of a fold; `C87_stale_false`, `C87_empty_false` show two cases where it is false |
| C88 | Equilibria are kept | p | as C85 | induction over the time loop with C23 (a solved start is returned); C72; the cell equation is linear in the step length |
| C89 | The direction of pipes, short pipes and lines is only a convention | p | as C72, with an operation that swaps ends | each law is compared with that of the reversed network; flux and source under reversal of the flow |
| C90 | Derivatives in reused matrices | p | the matrices of `ImplicitOptimizer` as stores that are initialised once and then updated in place, and `compute_derivatives` on them | invariant of all histories (sizes, pattern); refinement of the sweep of C16 step by step with C27 and C70 |
| C91 | Only differences of angles matter | p | the residual and the Jacobian of the whole network (C39, C69), the Newton solver (C22) and the time loop (C24) | entry-wise equality of residual and Jacobian for rotated states; a conjugation lemma carries it through line search, iteration, retries and time loop |
| C92 | The origin of time does not matter | p | as C91 | equality of residual and Jacobian at shifted times; the same conjugation lemma, with a map of the times |
| C93 | Interpolation in floating point arithmetic | p | `operator()` of interpolating vectors with a rounding after each operation; binary64 | rounding-error analysis; exactness at the nodes because x/x, 1-1, 0*a and 1*b are exact |
| C94 | Data for the whole simulated time suffice, also in floating point arithmetic | P | the computation of the time grid (`Timedata`, `make_from_start_delta_end`, accumulation of the step) in rounded arithmetic; binary64 | induction over the points for the accumulated error; a witness evaluated in the kernel |
| C95 | The order of entries in input files does not matter | P | as C45 and C40, for two files that differ by permutations of the lists of components | sorting by distinct ids has one result; a fold whose steps write disjoint segments does not depend on the order; a witness with a repeated id |
| C96 | A run with stochastic demands can be reproduced from its output | p | the constructor of `StochasticPQnode`, its output, and the helper programs for seeds | induction over the reports with a relation between old and new entries; reading back 32 bit integers |
| C97 | Evaluating the same controls again gives the same result | P | `Stochastic.prepareTimestep`, `prepareAll`, `stochasticSolver`, `simulateFrom`, `twice`: the demand of every node before every attempt, for an arbitrary generator, on top of `Evolve.simulate` | false: witness `C97_false`, a random walk; partial: induction over sub-steps, nodes and attempts that without noise the generators do not matter |
| C98 | The settings of the solver do not change the random demand | P | as C97; `UniqueSolution`, `NeverFails` are the specification of the solver | false: witness `C98_false`, a network whose first attempt fails; partial: without noise by `C24_solved`; if no attempt fails by induction over the times |
| C99 | A network is read as the files say | p | the schemas, constructors and tables of all node and edge types, their defaults, and `Read.readNet`, the network built from the jsons of topology, boundary values and defaults | for each type, from what the schema accepts and `prepare` keeps to what the constructor reads; units by C52; widths of cells by C38; interpolation by C01 to C03 and C66; `buildNet_made` for the whole network |
| C100 | A network that is read and set up can be simulated | P | `Read.readNet`, `Factory.toNet`, `Network.Net.setup` and `Network.Net.residual`; the conditions on the files are `Read.Fit` and `Read.Covers` | false: witness `C100_false`, a transmission line from a power node to a gas node; partial: from the conditions on the files via C99, C48 and C72 |
| C101 | Simulated states obey the laws with the data of the files | p | all of reading, building, computing residuals, Newton's method and the loop over the times together; `Read.Respects` states what the files demand of a step | C99, C100, C48, C83 and C85 composed, with the data of each entry of the files carried through |
| C102 | A run begins with the file of initial values and follows all files | p | `Read.run`: times, network, initial state, controls and simulation, as in `grazer::run`; `Read.Begins` and `Read.ControlledBy` state what the files of initial values and controls demand | C26, C68 for the times; C64 with ids and segments of the network (C40, C48); acceptance by schemas (C77), interpolation (C01, C02, C66) and conversion (C31) for the values; C101 for the steps |
| C103 | A run does not depend on uninitialised memory | p | the memory that `Eigen::VectorXd(n)` leaves uninitialised is an arbitrary function `mem` in reading of vectors, initial states, controls and bounds | both runs do the same steps with vectors of the same shape (`SameKind`); at the end each entry belongs to exactly one component (C40, C48, C64) and is determined by its entry in the file |
| C104 | The optimization problem handed to Ipopt is the one of the files | p | `Read.optimization`: the set-up of `grazer::run` with `optimize`, the constructor of `ImplicitOptimizer` and what Ipopt gets from `Wrapper` (sizes, bounds, pattern, objective, constraints) as a structure `Nlp`; the specification is `Read.Poses` | C26, C68, C20 for the times; C64 and the numbering (C40) for starting point and bounds; C09, C11 for the pattern; C101 for the states; C12, C44 for the objective; C74 and the numbering for the constraints |
| C105 | The gradient Ipopt gets is the derivative of the objective | p | as C104, with `evaluate_objective_gradient`: the matrices of all steps, the sweep and the copying to Ipopt (`Read.derivativesOf`) | the cost has no derivative by the state, so the sweep adds up the derivatives by the controls (C15); chain rule with the interpolation of controls (C08) and the numbering of variables |
| C106 | The Jacobian Ipopt gets is the derivative of the constraints | P | as C105, with `evaluate_constraint_jacobian`; the specification is `Read.Continues`: the states as functions of the variables that keep the equations as well solved as they are | C16 for the sweep, C69 and C44 for the matrices, C09 to C11 for the pattern; partial because of turbulent flow (C33); false in general: a problem set up from files whose Jacobian is wrong, with the same network as for C73 and one of five lengths of the pipe, found by a pigeonhole argument |
| C107 | Derivatives exist wherever the simulation succeeds | P | as C105 | false: a problem from files where the sweep reads in front of the constraint times (C18). C15 and C16 give success of the sweep; conversely a sweep that ends has met no singular matrix and its first constraint time is the first simulated time, so the condition is exact |
| C108 | What was computed is written | P | `Read.runFile`: `Read.run` and then the output of all components (`Output.statesJson`) for the states of the run, with the powers each type of node reports | false: witness `C108_false`, a single node whose boundary values begin after the start; partial: C102 for the states, C79 for the file, C41 for the powers |
| C109 | The file of results obeys the laws with the data of the input files | p | as C108; the specification `Read.Results` states the laws in terms of ids, entries of the input files and numbers in the output file | C102 for the states; ids are distinct (C48), so that the results by id are those of the component; each law of `Read.Respects` is rewritten in terms of the entries |
| C110 | What an editor accepts with the generated schemas, the program accepts | P | the generation of schemas for the files (`Editor.generate`) from those of the component types by adding and removing defaults | one level of a schema: the schema with defaults accepts the completed data iff the one without the defaulted keys accepts the data; induction over the depth; then lists, types, classes and files. False: witness `C110_false` |
| C111 | The generated schemas accept every topology the program reads | P | as C110, with `Read.readNet` | the other direction of the same equivalence, from `prepare` for each component that was read. False: witness `C111_false` |
| C112 | Schemas can be generated for every problem that the program reads | P | as C110; the specification is `Editor.Fits`: the defaults only have listed keys, at every depth | induction over the form of schemas for adding defaults; removing never fails for these schemas. False: witness `C112_false` |
| C113 | After inserting keys each file refers to its schema and keeps its data | P | the command that inserts keys as a machine on top of that of C53, with ordered jsons; parsing and printing are arbitrary | an invariant over the types already treated; induction over the items for the inserted key. False: witness `C113_false` |
| C114 | Inserting keys never loses data | P | as C113; any number of runs, each killed anywhere | the invariant of C53 for the file being written, carried along by the invariant of the run. False: witness `C114_false`, two runs |
| C115 | Generating schemas only writes schemas | p | `make_schemas` as a machine on the file system | an invariant over the files already written |
| C116 | The result of an optimization can be checked by a simulation | p | the output of an optimization in `Read/Replay.lean`: controls.json and states.json for an arbitrary vector of controls, on top of the model of the optimization (C104) and of runs (C102) | setting controls from the entries that were written gives back the vector (as for C81, now over the reals), hence both simulations are the same function applied to the same controls; the laws follow from C109 |
| C117 | Results can be exported completely and exactly | p | the program `generate_printing_csv` in `Output/Csv.lean`: bisection, search in classes and types, tables; on top of the file of a run (`Read.runFile`) | bisection is correct in sorted lists (induction over the length); lists of a file of results are sorted because the network is built from lists that C46 sorts (`Graph/Order.lean`) and keeps this order; ids are unique (C48); the keys of entries are exactly those expected |
| C118 | The solver finds the solution if it starts close enough | p | nothing new: the solver (`Newton`), simulations (`Evolve`) and the equations of networks with the matrices the components fill (`Network`) | strict differentiability of the residual and continuity of the filled matrix at regular states (`Euler/Smooth.lean`, `Network/Smooth.lean`); a Kantorovich-type argument for the model of the solver: every step halves the residual, so no step is damped and the iterates stay in the ball (`Newton/Local.lean`); induction over the time steps with the growth of the error |
| C119 | The next state is a well-defined differentiable function of last state and controls | p | nothing new: the equations of networks with the matrices the components fill, and problems for Ipopt (`Read/Nlp.lean`) | implicit function theorem of Mathlib, applied to the residual with the filled matrices as derivative; induction over time steps; invertibility at the simulated states follows from the fact that derivatives were returned |
| C120 | A run writes to a directory of its own only | p | `grazer run` as a machine that takes one step after the other in a shared file system, `Command/Machine.lean`: making directories, reading files, computing (an arbitrary computation that reads files, `Prog`), copying the problem, creating and writing files; any number of runs and other programs in any order | invariant over all reachable states: what is outside of the directory a run made itself has changed by other programs and other runs only; a run can stop anywhere because the invariant holds at every state |
| C121 | The exit code tells whether there are results | P | the same machine; `silent` says whether the operating system may fail to write without `std::ofstream` telling | invariant that ties the stage of a run to the texts it read (`Known`) and the contents of its directory; witness for the negation: a disk that does not take the text; `C121_succeeds` builds a run by induction over the entries to be copied and the files to be written |
| C122 | A run can be repeated from its output directory | P | the same machine, with names of files resolved as paths (`Command/Repeat.lean`) | invariant: what has been copied equals the problem; the evaluation of a computation depends on the texts it reads only; witnesses for the negations |
| C123 | Settings are used as written or rejected | P | reading of settings in `Command/Settings.lean`: `Timedata`, `Timeevolver::make_instance`, `setup_controls` and `run` | case analysis of the reader against `valueAt`, a specification of what is written at a path of keys; witnesses for the negations |
| C124 | A run that reports success leaves the results of the problem | P | `grazer::run` as a whole in `Command/Program.lean`: from the texts of the files to the texts that are written, with parsing, printing, linear solves and Ipopt as parameters (`Libraries`), on top of the machine (C120), settings (C123), runs (C102, C109) and optimizations (C104, C116) | evaluation of the reading program, C121 for the machine, C109 and C116 for the results; the witness for the negation is a complete run of an optimization with a library that reports failure |
| C125 | Runs have no undefined behaviour | P | the outcome `Res.ub` of all models along `run`, `runFile`, `optimization`, what Ipopt evaluates, `optimizedFiles` and `program` (`Read/Defined*.lean`, `Command/Defined.lean`) | each function is shown not to give `ub` for clean files, from schemas, the proper construction of the network (C48), grids of times (C26, C68), interpolation (C03) and the time evolution (C24); witnesses for the negation |
| C126 | Files without mistakes are read | p | reading a network (`Read/Model.lean`), with the schemas of all types and the Json schema validation modelled in `Schema`; what files without mistakes are is `WellFormed` (`Read/Accept*.lean`) | the schema with defaults accepts the entry with defaults, property by property; boundary values are inserted by C46; constructors succeed by C52 and C38; the loop over edges keeps the ids of the nodes |
| C127 | With files without mistakes a run fails only if Newton's method fails | p | `run` (`Read/Run.lean`); what files without mistakes are is `Faultless`, and what the failure of Newton's method is are `Fails` and `Stuck` (`Read/AcceptState.lean`, `Read/AcceptRun.lean`) | C126 for the network, C99 to relate components and entries, C77 and C66 for what is read, C03 for evaluation between first and last points, C47 for missing entries, C68 and C26 for the times, and induction over the time loop with C25 for the attempts |
| C128 | The program that scales inflows makes them sum up to the given value | P | `change_inflow` in `Helpers/Scale.lean`, with statements that change a json value in place and keep changes after exceptions (`Helpers/Mutable.lean`) | a calculus of edits: which places of a file a statement changes (`Acts`), for reading, writing, loops and sequences; places are a small specification of their own (`value?`, `Apart`); witness for the negation |
| C129 | The program that raises pressures raises all of them or none | P | `increase_pressure`, in the same way | the same calculus, induction over the types; witness for the negation |
| C130 | The program that sums outflows prints the sum over all short pipes | P | `sum_outflow`, in the same way | induction over the list of short pipes; witnesses for the negations |
| C131 | The program that moves a component moves it in all files or in none | P | `move_to_category` in `Helpers/Move.lean`, over a list of files of which some may be missing | search for the id is correct (induction), the first entry with it is unique, then what is at each place of the new file; witness for the negation: a missing file |
| C132 | The program that adds a gas power connection adds it | P | `construct_gaspowerconnection` in `Helpers/Connect.lean` | as C131; witnesses for the negations |
| C133 | Controls found by an optimization can be exported as tables | p | `generate_control_printing_csv` in `Output/ControlCsv.lean`, with the bisection of C117, on what an optimization writes (C116) | the components of each type are written in the order of ids, by C95 for the network; bisection finds the entry (induction), rows are those of C81 |
| C134 | The equations of a pipe approximate the isothermal Euler equations | p | nothing new: the box scheme (`Box`), the Euler equations (`Euler`) and the equations of a pipe (`Gas`); the specification is `Box.Solves`, the differential equations written out with derivatives of functions of time and place | `Box/Consistency.lean`: error of a backward difference and of the trapezoidal rule by the mean value inequality, in any normed space; flux is smooth where the density is positive, so compactness gives one constant for all cells and steps; a flow that slows down by friction meets the hypotheses |
| C135 | Friction acts against the flow, and stationary gas flows downhill | p | nothing new: `Euler` and `Box`; subsonic states are specified by velocity and speed of sound (`Box.Subsonic`) | `Box/Stationary.lean`: the friction factor is positive, also between laminar and turbulent flow, where it is written in the Hermite basis; momentum flux grows with density for subsonic states with the same flow; induction over the points |
| C136 | Stationary gas does not flow in circles | p | nothing new: networks (`Network`) and their laws (C72); the flow as a relation between nodes (`Network.Flows`) | `Network/Circulation.lean`: C135 for each pipe, equal pressures at nodes from C72, induction over ways; for closed networks the sum over nodes of pressure times outflow is the sum over edges of flow times fall of pressure, whose terms are not negative |
| C137 | A passive grid never delivers more active power than it gets | p | the active power of all power nodes of an admissible network at a state | from the power balance C42 by exchanging the sums over nodes and lines and the addition theorem for the cosine |
| C138 | Numbers that do not fit into Ipopt's index type are refused | p | `get_nlp_info` and the conversion of indices to 32 bits in `Jacobian/Ipopt.lean` | all indices are smaller than the announced numbers (C09), which are checked |
| C139 | A simulated process covers the whole time from start to end evenly | P | the program `oup.cpp` in `Float/Oup.lean`: times in rounded arithmetic, values (from `Stochastic`) without rounding | the quotient is a whole number without rounding (C58, C59 for the values); with rounding it is off by less than one by multiplying the relative errors; a witness in `double` where the last row is missing |
| C140 | Positions are copied to the components with the same id | P | `insert_positions.cpp` for the lists of one type in `Json/Positions.lean` and for whole files in `Json/PositionsFile.lean`; jsons and sorting are those of C45 | induction over both sorted lists, then over types and classes, as for C46; a counterexample |
| C141 | Views of the caller's memory | p | the three classes of interpolating vectors with the caller's memory as addressed cells in `Interp/Views.lean` | each call simulates the call on a plain vector (C04, C07, C67) and leaves cells outside of the view alone; induction over histories |
| C142 | Editors accept exactly the values the program reads | p | generated schemas for values, and reading of initial values and controls by the components | equivalences for each schema of a class, together with C77 and C78 |
| C143 | Views of Jacobians | p | the classes of Jacobians with the caller's memory as addressed cells in `Jacobian/Views.lean` | the array is the column blocks one after the other (C09, C10), so each cell has one entry of the matrix; case analysis over calls |
| C144 | An optimization that ends writes its results | P | the whole of what happens after Ipopt has returned, with the density of the Jacobian (`Jacobian.density`), in `optimizedFiles` | with constraints the Jacobian has entries (C09, C20) and files are written as for C116 and C125; without, the vector for the copy is empty and its pointer null. False: witness `C144_false` |
| C145 | The comparison with a reference keeps the largest discrepance | p | `compute_reference_discrepance.cpp` for the components of one type in `Helpers/Discrepance.lean`, and the choice of files, the loops over classes and types and the main function in `Helpers/DiscrepanceFile.lean`: search by id, first run, later runs, for numbers and for arrays of points | an invariant relating the results up to now to the reference and all runs up to now; induction over runs, components, time steps, quantities, points |
| C146 | Components missing in the reference are refused | P | the same model as for C145 | the invariant of C145 gives the ids of the results up to now, so that the search finds another id or the end. False in the first run: witness `C146_false` |
| C147 | The iterated friction factor solves the equation of Colebrook and White | P | `exact_turbulent_lambda` with its loop in `Euler/Colebrook.lean` | the tangents of a concave function lie above it, so that after one step the function is not positive; monotonicity. False: a witness with explicit bounds for logarithms, `C147_false` |
| C148 | Converted boundary conditions keep the data of both quantities | P | `boundaryprettyfy.cpp` in `Helpers/Boundary.lean`: the collection of the quantities of each node, and the loop over the conditions | the result for a node is a fold over the node's own conditions (induction over the file); lookups in the data after each point. False: witness `C148_false` |
| C149 | No power node gets lost in the converted topology | P | the loop over power nodes of `boundaryprettyfy.cpp` in `Helpers/Boundary.lean` | induction over the nodes. False: witness `C149_false` |
| C150 | The gas heat map shows the pressures | P | `draw_heatmap_gaslib.cpp` in `Helpers/Heatmap.lean`: extremes, values and colours of edges, legend | invariant of the loop: both ends of the scale stay at the largest number. False for all results: `C150_actual`, witness `C150_false` |
| C151 | The power heat map shows the active powers | P | `draw_heatmap_power.cpp` in `Helpers/Heatmap.lean`: extremes, values and colours of nodes | the loop over values computes least and greatest elements; induction over nodes with the values up to now. False: witness `C151_false` |
| C152 | Colours of the heat maps are valid and ordered | p | `rgb_color` in `Helpers/Heatmap.lean`, with 0/0 | bounds for the ratio and for floors |
| C153 | Objective of an optimization is a convex quadratic function of the compressor controls | p | `optimization` and `objectiveOf` in `Read/Nlp.lean` (the functions of C104), from the files to the value | the value is written as a sum over times of positive weights and squares of linear combinations of two variables; convexity, scaling, independence and zeros are read off the sum |
| C154 | Rounding changes the objective of an optimization only by a tiny factor | p | coefficients, costs and the loop over the times with rounding in `Float/Objective.lean` | all summands are not negative, so relative errors multiply: a calculus of numbers that are near up to k roundings; induction over the sums |
| C155 | Numbers written as text with fixed decimals read back as the same numbers | P | `to_string_precise` in `Helpers/Print.lean`: digits of the number rounded to decimals; read again by the model of `std::stod` of C52 | induction over digits; errors and monotonicity of rounding. False: witness `C155_false` |
| C156 | Converting a file of values to texts changes the values and nothing else | p | `stringify_value_json.cpp` in `Helpers/Stringify.lean` as edits of a json value | each loop puts texts at the places of a shape and changes nothing else; composition of edits; for failures inversion of the loops |
| C157 | A drawn seed is a faithful name for the entropy it was drawn from | p | `seed_seq_fe` of `randutils.hpp` in `Stochastic/SeedSeq.lean` with `BitVec 32`: all loops of `mix_entropy`, `param` and `fast_exp` | each step has an inverse (odd multipliers, xor with a shift by half the bits), loops run backwards cancel; odd words to the power 2^32 are one |
| C158 | Different seeds initialise random number generators differently | p | `generate`, `make_random_seed` and `random_int` in the same file | injectivity of each step, closed form of the third loop, finiteness for surjectivity |
| C159 | Pictures of networks are complete | P | reading of nodes and edges by type and the written lines of the four drawing programs in `Helpers/Draw.lean` | the elements read in the order of the program's types are a permutation of those of the topology with these types; counterexamples for missing types |
| C160 | Pictures of networks are true to scale | P | mean and scaling of positions in `Helpers/Draw.lean` | the sum of the differences to the mean is zero; a counterexample for the default factor |
| C161 | The legend of a heat map stands beside the network | p | search for the extreme positions and the place of the legend in `Helpers/Draw.lean` | the loops find the extremes if they start beyond one of the numbers; numbers with sum zero are not all on one side |
| C162 | Mean and deviation over whole result files | p | the whole program `get_mean_sigma` in `Helpers/Collect.lean`: choice of files, loops over classes, types, components, time steps, quantities and points, lookups by bisection | induction over the files with the invariant that every entry of the output is the result for the values of the files up to now; C61 for single quantities |
| C163 | Quantiles over whole result files | P | the whole program `get_quantiles` in `Helpers/Collect.lean` and `Helpers/CollectProps.lean` | the same induction for lists of values; counting in sorted lists; counterexamples for odd and small numbers of files |
| C164 | Old initial values become numbers | P | the conversion of old initial values in `boundaryprettyfy.cpp` 222-259 in `Helpers/InitialStrings.lean`, on jsons, with `std::stod` as a parameter | induction over lists of conditions, data points and values; a counterexample with a single value |
| C165 | The stationary state of a pipe is determined by flow and pressure where the gas leaves | p | nothing new: `Euler` and `Box`; stationary states are specified in `Box/Unique.lean` (`Stationary`) | `Box/Unique.lean`: pressure plus a multiple of one over the density is injective on subsonic densities; induction over the points from the end to which the gas flows |
| C166 | The stationary state of a pipe is determined by flow and pressure where the gas enters | P | nothing new: as C165; `Slow` adds the friction over half a cell to the square of the velocity | as C165 from the other end; a counterexample with one cell and densities 7/2, 1 and 2, in which width and flow are chosen to fit |
| C167 | The stationary state of a gas network without circles is determined by its boundary values | p | nothing new: networks (`Network`) and their laws (C72); circles and ways are specified in `Network/Tree.lean` | `Network/Tree.lean`: the difference of two flows has no sources, and the sum over one side of a cut is the flow in the edge; induction over ways from the pressure node with C166 for each pipe |
| C168 | Names of output directories tell the order of runs | P | the name of an output directory in `Files/Timestamp.lean`, on lists of bytes, with the calendar as a parameter | numbers with leading zeros are ordered as strings; induction over the digits; a counterexample within one second |
| C169 | The equations of a pipe are the isothermal Euler equations with friction | p | nothing new: `Euler`; the physical laws are specified in `Euler/Physics.lean` with all constants as numbers | `Euler/Physics.lean`: algebra, cases by the Reynolds number, bounds for pi |
| C170 | The schema for the problem file fits the program | P | the schema of `problem_data.json` in `Command/ProblemSchema.lean`, with `accepts` of `Schema/Validate.lean` and the reading of all files of `Command/Program.lean` | unfolding the keywords; the file of a run that succeeds as a witness, and a file in the layout of the schema |
| C171 | A pipe has a stationary state for every delivery | P | nothing new: `Box`, `Euler` | `Box/Exists.lean`: intermediate value theorem for each cell, induction from the delivery upwards with a bound on the pressure; a long cell as a witness |
| C172 | Friction grows with the flow | p | nothing new: `Euler` | `Box/Friction.lean`: the factor of friction times the square of the Reynolds number has a positive derivative in each regime (bounds for the logarithm, the cubic of the transition), glued at the seams |
| C173 | More delivery takes more supply | p | nothing new: `Box`, `Euler` | `Box/Friction.lean`: comparison of two cells by the monotonicity of pressure plus momentum, C172, induction from the delivery upwards |
| C174 | The flow through a pipe is determined by the pressures at its ends | p | nothing new: `Box`, `Euler` | `Box/Flow.lean`: C173, its mirror image and comparison with gas at rest |
| C175 | The stationary state of a gas network with circles is determined by its boundary values and controls | p | nothing new: `Network`, laws of C72 | `Network/Circles.lean`: the nodes with more pressure in one of the states form a set that exports strictly more (C174) but has the same balance; a cut argument for short edges |
| C176 | More inflow and more prescribed pressure never lower a pressure of a gas network | p | nothing new: `Network`, laws of C72 | `Network/Circles.lean`: the nodes where the pressure is smaller form a set that would have to import strictly more through its edges (C174) than its balance allows |
| C177 | Circles of short edges make every time step ambiguous and every linear system singular | p | nothing new: `Network` and its derivative | `Network/ShortCircles.lean`: a unit of flow along the circle changes no law; its direction is in the kernel of every matrix, row by row |
| C178 | A part of the power grid without prescribed angle makes every time step ambiguous and every linear system singular | p | nothing new: `Network`, `Power` and its derivative | `Network/Slack.lean`: adding a number to all angles of the part changes no law, since only differences of angles enter; this direction is in the kernel of every matrix, row by row |
| C179 | A part of short edges without prescribed pressure makes every time step ambiguous and every linear system singular | p | nothing new: `Network` and its derivative | `Network/Floating.lean`: adding a number to all pressures of the part changes no law; this direction is in the kernel of every matrix, row by row |
| C180 | In a network of short edges a time step has exactly one solution iff the graph allows it, and one Newton iteration finds it | p | nothing new: `Network` and its derivative, `Newton`, `Evolve` | `Network/Static.lean`: the contributions to the matrix are constants, so the residual is affine (mean value theorem along a segment); the kernel is trivial iff there is no circle and every part has a pressure node (`Regular` for one direction, C177 and C179 for the other); a full step ends in a zero of the residual, the line search accepts it at once, and the loop over the times never needs a retry |
| C181 | In a network of short edges the optimization problem is convex | p | nothing new: `Network` and its derivative, `Adjoint`, `Read/Nlp` | `Network/StaticControl.lean`: the residual is affine in state and control with matrices that depend on the network only; the inverse matrix bounds how far a state is from the solution by a multiple of the tolerance. `Read/NlpStatic.lean`: carried over to the constraint values given to Ipopt, for every pair of variables; with tolerance 0 the feasible set is convex and a better feasible point gives better ones nearby |
| C182 | Cached derivatives of the equations belong to the asked controls and states | P | `OptState/EquationCache.lean`: the cache, its check and the two ways of filling it, on top of `Handler` and `Interp` | `OptState/EquationCacheProps.lean`: invariant between calls (sizes, positions, and the derivatives of the noted query in every step), kept by each step of the loops. False after a call that threw, for states that were not simulated, and with assertions; witnesses and a general theorem for the latter. `Network/EquationCache.lean`: for networks, with C69 and C70 |
| C183 | Detaching an edge from a node | p | `Factory.removeEdge`, the two loops of `Node::remove_edge`, and the check of the constructor of `Net` | induction over the list of edges; lists are free of duplicates and no edge is in both by C48 |
| C184 | An optimization in which Ipopt gives no solution | P | `Command.Solver.best` and `Command.optimize`: `Adaptor.cpp`, the first question of Ipopt (`get_nlp_info`) and the end of `run`; Ipopt itself is a parameter | false: witness `C184_false`, the optimization of C104 with an Ipopt that cannot be initialised; partial: the vector is empty, but there is at least one variable |
| C185 | Output files named by the clock | p | `Files.Epoch.attach`, `createLoop` and `prepareFile`; names are lists of bytes, `stem` and `extension` are modelled by `split` | the last dot and the last underscore of a generated name are where the parts were joined; decimal numbers are injective; induction over the tries; the order of names by induction over the digits |

## What was found: deviations of the code from what a user relies on

Each is a theorem (suffix `_false`, or the name given) or is noted at the definition concerned.

* C06: the constructor of `InterpolatingVector` from `std::vector` checks the vector after it was moved from, so unsorted
  points are accepted.
* C12: the objective leaves out the term of the initial time.
* C16, C18, C107: the derivative sweep reads the constraint times out of bounds for some constraint times; C107_false has the files of such a problem.
* C19: at the end of the optimization, cost and penalty are evaluated for the controls seen last, not the final ones.
* C20: the final time is left out of the constraint times unless it happens to be hit.
* C22: Newton's method reports success if the residual is NaN or the limit of iterations is negative.
* C26, C68: a negative wished step, or a single control step, is accepted and gives a useless time grid.
* C32, C33, C34, C69, C73, C106: the derivative of the turbulent friction factor has a product in place of a quotient, so all
  derivatives with turbulent flow are wrong, for every pipe and every such state. `C73_false` shows the consequence for
  the optimizer: in a network with a compressor, one pipe and a sink, the Jacobian of the constraints is not the derivative.
  `C106_false` shows it for files: they are read, the problem is set up, and Ipopt gets the wrong Jacobian.
* C38: a negative wished width of the cells of a pipe is not rejected.
* C43: for some efficiencies, the power of a gas power plant decreases with the flow.
* C46: boundary entries are silently left out for components after the last entry. (For whole networks, this is caught: C71.)
* C53: writing errors go unnoticed when a json is overwritten, and then its backup is removed; all files of a directory share
  one backup name.
* C56: the check whether a path lies in the root directory reads behind the end of the path if it lies above.
* C58: the number of stochastic sub-steps overflows for large time steps.
* C59: a stochastic demand with mean zero is not cut off.
* C60: the demand reported for every time is that of the last time.
* C62: quantiles of fewer than eleven samples are read out of bounds.
* C63: the extracted state is one step too early.
* C74: the constraint of a sink at a pipe bounds the density in place of the pressure.
* C76: the units m^2 and m^3 are never accepted, as they are used as regular expressions without escaping. (Prefixes of
  these would scale linearly.)
* C77: the points of initial values need not be sorted to pass validation.
* C78: boundary values and controls without time, without values or without any entry pass validation, and reading them is
  undefined behaviour.
* C86: if the simulation fails at the point the optimizer returns (for instance the starting point), states and controls are written
  all the same, but the states do not belong to the controls.
* C87: the printed constraint violations are those of the last point that was tried, as `evaluate_constraints` is called without `new_x`
  (`commands.cpp` 255); without constraints, `maxCoeff` of an empty vector would be undefined behaviour (but see C144).
* C94: the times of a simulation are computed by adding up the step, so that rounding errors accumulate and the last time may exceed the
  end by more than the tolerance 1e-10 of the evaluation of interpolated data. For `double`, two days in steps of at most 59 minutes
  cannot be simulated with boundary values or controls given for exactly these two days (`C94_simulation_false`). The number of time
  points the time data report can differ from that of the grid (`C94_number_false`).
* C95: an id that occurs twice in initial values, controls or bounds is accepted and the last entry counts, so that the order matters there;
  topology and boundary values with such ids are rejected.
* C97: stochastic nodes keep their random generator between simulations. In an optimization two evaluations of the same
  controls give different states and objectives (`C97_false`); nothing rejects optimizing a network with such nodes.
* C98: `make_one_step` calls `prepare_timestep` inside the loop over the attempts. If an attempt fails, the next one is
  for another random demand, so the states depend on the settings of the solver (`C98_false`), and demands for which the
  solver fails are silently replaced.
* C99: the comments in `Transmissionline.hpp` say that the constructor makes sure that both ends are power nodes. It checks nothing.
  The value of "balancelaw" is never looked at, apart from its type.
* C100: a transmission line between a power node and a gas node is accepted when the network is read and set up, and then a null
  pointer is used in every evaluation (`C100_false`).
* C108: `json_save` of PQ and PV nodes evaluates the boundary values at every saved time, including the first. The simulation evaluates
  them only at the ends of time steps. If the boundary values begin after the start time, the simulation runs through and
  then the output throws, so that all results are lost. `C108_false`.
* C110: a default that gives only a part of a value, such as the unit of all lengths, removes the whole key from the required ones in the schemas for
  editors. An editor then accepts pipes without length, and the program rejects them (`C110_false`).
* C111: the schemas for editors require "nodes" and "connections" in each file, the program does not (`C111_false`). Several of the example
  problems in /repo/data have files of boundary values and controls without these keys. The schema for the file of the problem describes keys
  that none of the example problems has.
* C112: default boundary values work in the program, but with them no schemas can be generated (`C112_false`).
* C113: `insert-key` first sets the new key and then copies all old items over it. A file that already refers to some other schema still does so
  (`C113_false`). A file that is an array or a number is turned into an object.
* C114: all files share the backup `tmp_backup`. If `insert-key` is killed while it writes one file, running it again moves another file over the
  backup, and the content is lost (`C114_false`).
* C121: results are written with `std::ofstream` and its state is not looked at; with a full disk the exit code is 0 and the file is empty or cut off.
* C122: the problem is copied to the output directory after the computation, so it need not be what was computed from; files named by relative paths that leave the directory are not copied.
* C123: `maximal_number_of_newton_iterations`, `retries` and `number_of_steps` are cut off to whole numbers silently (and `true` is taken for 1); the times are read before anything is validated, without looking whether they are there; `optimize` and `evaluate_constraints_every_n` are ignored if they have other types.
* C124: the status that `Adaptor::optimize` returns is ignored by `run`; `finalize_solution` prints `Ipopt::SUCCESS` whatever happened.
* C125: undefined behaviour for missing times in the settings, a wished time step of 0, and empty lists of boundary values, which the schema allows. An optimization with a single control time (`number_of_steps` 1) dereferences an end iterator in the constructor of the optimizer, before its check of the times could throw.
* C128, C129: `change_inflow` and `increase_pressure` catch exceptions, report them and then write the half-changed file over the old one.
* C130: `sum_outflow` prints a partial sum after an exception and reads behind the end of lists with one point.
* C131: `move_to_category` changes the files of a problem one after another and stops at the first it cannot read; the ones before are changed then.
* C132: `construct_gaspowerconnection` copies the first connection it finds: without one it does nothing and says nothing, with an empty list its behaviour is undefined.
* C139: the program `oup` computes the number of rows by cutting off a quotient that is a whole number but for rounding: one hour in seven steps gives six steps, so the value at the end is missing.
* C140: `insert_positions` leaves components without position silently if their ids are greater than those of all positions (as in C46).
* C144: after an optimization without constraints an exception is always thrown, and no results are written: for the density of the Jacobian, which
  is only printed, the Jacobian is assigned to a view of an empty `Eigen::VectorXd`, whose `data()` is null, and views of null throw. This comes
  before the empty `maxCoeff` of C87, which is therefore only reached if the null check is removed.
* C146: `compute_reference_discrepance` compares a component that the reference lacks with the next component of the reference, if it is in the
  first run; in later runs it ends with an exception. (In the first run the points of gas components are compared by their numbers, not by their
  positions, too.)
* C145: only ten types of components are compared. Differences in other types (all gas nodes, transmission lines), and types a run has but
  the reference has not, are passed over without notice (last two parts of `C145_files`).
* C147: `exact_turbulent_lambda` ends its loop when `f`, instead of its absolute value, is below the tolerance. As the function is concave, this
  happens in the second round at the latest; the result may miss the equation by much more than the tolerance.
* C148, C149: `boundaryprettyfy` compares the quantities of a node in the order of the file with sorted lists. If a file has Q before P, V before P, or
  phi before V, the node silently gets no type and no data, and vanishes from the converted topology.
* C150: `draw_heatmap_gaslib` paints every edge green, whatever the results are: in `extract_min_max_values` the local maximum starts at `min`, the largest
  `double`, so that both ends of the scale are the largest `double`.
* C151: `draw_heatmap_power` sets `value` before the loop over the nodes of a type and not for each node, so that a node is never painted in a lower colour
  than the nodes of its type before it.
* C155: `stringify_value_json` writes nine decimals in fixed notation, so values below 5·10⁻¹⁰ become zero and numbers below 2²⁴ are in general not restored.
* C159: `draw_gaslib_graph` leaves out nodes of the types ConstraintSink and Pressureboundarynode, and `draw_heatmap_gaslib` also sinks (and short pipes), but
  draws the edges ending there; LaTeX rejects such a file.
* C160: the programs drawing power networks scale by 1/10 instead of the documented 10 if no factor is given.
* C163: `get_quantiles` takes the value above the middle as the median of an odd number of files, and reads behind the end of an array for fewer than eleven
  files (as in C62). The documentation says that its first argument is the beginning of the names of the files; it is the name of their directory.
* C164: `boundaryprettyfy` leaves single initial values as strings: it asks whether the value is an object, and would throw then.
* C166: in a long cell the box scheme has two subsonic stationary states with the same flow and pressure of supply. The stationary state found may depend on the starting value.
* C168: milliseconds in names of output directories have no leading zeros, so within a second the names do not sort by time.
* C170: the generated schema for `problem_data.json` has an older layout (`initial_values`, `subproblems`, `Network_problem`). It rejects all example problems, and a file in its layout is not read.
* C171: the gas law of the code has a largest pressure of about 445 bar. A long pipe with much friction has no stationary state for a given delivery.
* C175: the flow in circles of short pipes, compressors and control valves is not determined by the equations: two short pipes side by side have a stationary state for every
  distribution of the flow (`C175_short_circles_false`). The program does not refuse such networks; in every network with such a circle the linear systems of
  its solver are singular in every state (C177).
* C184: if Ipopt gives no solution (it cannot be initialised, or refuses the problem), `run` goes on with an empty vector of controls, whose entries it then uses: a failed assertion, or a null pointer is dereferenced.
* Noted only: controls are written to `controls.json` but read from `control.json`; nested defaults applied twice may give something else (C50_nested_twice); the number of control values is not checked; gas edges attached to power nodes are not
  rejected when the network is built; a sink with constraint without gas edge is undefined behaviour; the network's own
  weight enters costs but not their gradients (latent, it is always one: C44_weight_needed).

## Tests of the theorems against wrong programs

`seeded/LOG.jsonl` lists every edit of the model that was tried, the theorems that failed because of it, and those that were
tightened because nothing failed at first.
