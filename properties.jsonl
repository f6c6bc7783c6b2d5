{"id": "C01", "title": "Even distribution of work is a partition", "statement": "Asking for N work items to be distributed over P>0 divisions returns, for every division, a size and an offset such that the blocks [offset, offset+size) are consecutive, start at 0, end at N, every item lies in exactly one block, and no two block sizes differ by more than one.", "quantifier": "every number of divisions P >= 1 and every number of items N >= 0", "why_tests_cant": "Tests use a handful of (P, N) pairs; the off-by-one cases are the infinitely many remainders.", "anchors": ["openmdao/util/array_util.py: evenly_distrib_idxs"]}
{"id": "C02", "title": "Index arrays converted to slices select the same entries", "statement": "Converting an array of non-negative indices to a slice (when possible) yields an index object that selects exactly the same positions, in the same order, with the same multiplicity, out of any vector long enough for the original indices; repeated, unsorted or irregular indices are never turned into a slice.", "quantifier": "every finite array of non-negative indices and every vector the array can index", "why_tests_cant": "The set of index patterns (strides, repeats, single entries, irregular tails) is unbounded.", "anchors": ["openmdao/util/array_util.py: to_slice"]}
{"id": "C03", "title": "Forward data transfer delivers every connected value", "statement": "After a forward data transfer every target entry listed in a connection holds the source entry it is connected to, and every other target entry is unchanged, no matter how many connections there are, in which order they were given, which of them were turned into slices and which were merged.", "quantifier": "every list of connections (paired non-empty source/target index arrays of equal length, target positions not shared) and all vector contents", "why_tests_cant": "Sorting, slice conversion and merging interact; tests only see the layouts of a few models.", "anchors": ["openmdao/core/data_transfer.py: DataTransfer.__init__, DataTransfer.transfer"]}
{"id": "C04", "title": "Reverse data transfer is the transpose of forward transfer", "statement": "A reverse transfer adds to every source entry the sum of all target entries connected to it (counting repeated source indices), leaves every other source entry and all targets unchanged; hence for a fresh zero target, <forward(s), t> = <s, reverse(t)>.", "quantifier": "every list of connections, including connections with repeated source indices, and all vectors", "why_tests_cant": "Reverse accumulation with duplicates and merged slices depends on unboundedly many index patterns; the adjoint identity ranges over all vectors.", "anchors": ["openmdao/core/data_transfer.py: DataTransfer.__init__, DataTransfer.transfer", "openmdao/core/group.py: Group._transfer_data"]}
{"id": "C05", "title": "Variables tile the flat vector", "statement": "After setup the storage ranges of the vector variables are consecutive, disjoint, in declaration order, each exactly as long as the variable, and together cover the whole flat vector; variables passed by object or living on another process own no storage.", "quantifier": "every list of declared variables with arbitrary sizes and pass-by-object/remote/irrelevant flags", "why_tests_cant": "The number and mix of variables is unbounded.", "anchors": ["openmdao/core/vec_wrapper.py: SrcVecWrapper.setup, SrcVecWrapper._setup_var_meta, Accessor.__init__"]}
{"id": "C06", "title": "Setting one variable reads back and touches nothing else", "statement": "After any sequence of assignments to variables of a vector, reading a variable returns the value last assigned to it (or its initial value), and an assignment rejected because of a size mismatch or because the variable is remote changes nothing.", "quantifier": "every variable list and every finite sequence of assignments and reads", "why_tests_cant": "Aliasing bugs show up only for particular sequences of sizes and assignments; sequences are unbounded.", "anchors": ["openmdao/core/vec_wrapper.py: VecWrapper.__getitem__, VecWrapper.__setitem__, Accessor._set_arr, Accessor._set_scalar, Accessor._set_pbo"]}
{"id": "C07", "title": "Subsystem views alias the parent's storage", "statement": "A subsystem's vector view has exactly the sub-variables of the parent that are mapped to it; reading a variable through the view gives the parent's value, writing through the view is visible in the parent under the parent's name and leaves all other parent variables unchanged.", "quantifier": "every parent vector, every contiguous selection of its variables as a subsystem view, every written value", "why_tests_cant": "Views of views at arbitrary hierarchy depth and with arbitrary sizes.", "anchors": ["openmdao/core/vec_wrapper.py: VecWrapper.get_view"]}
{"id": "C08", "title": "Parameters are read in their own units", "statement": "Reading a connected parameter returns its source's value converted to the parameter's units: scale*(value+offset) with the scale and offset of the two declared units; with no units on either side or identical units the value is unchanged; derivative vectors only ever apply the scale.", "quantifier": "every pair of compatible source/target units and every value", "why_tests_cant": "Units and values form an infinite domain.", "anchors": ["openmdao/core/problem.py: Problem._setup_units", "openmdao/core/vec_wrapper.py: Accessor._get_arr_units, Accessor._get_scalar_units, TgtVecWrapper._apply_unit_derivatives"]}
{"id": "C09", "title": "Unit conversion is an invertible, transitive change of coordinates", "statement": "Converting a value from a unit to itself is the identity, converting there and back returns the value, converting through an intermediate unit equals converting directly, and a conversion is refused exactly when the two units have different dimensions.", "quantifier": "all units with non-zero factors (including offset units such as temperatures) and all values", "why_tests_cant": "Infinitely many unit triples and values.", "anchors": ["openmdao/units/units.py: PhysicalUnit.conversion_tuple_to, get_conversion_tuple, convert_units, PhysicalQuantity.convert_value"]}
{"id": "C10", "title": "Unit algebra respects dimensions", "statement": "Multiplying, dividing and raising units to integer powers multiplies, divides and powers their factors and adds, subtracts and scales their dimension exponents; any such operation with an offset unit (like degF) is refused; two units are compatible iff their dimension vectors are equal.", "quantifier": "all units and all integer exponents", "why_tests_cant": "Infinite family of derived units.", "anchors": ["openmdao/units/units.py: PhysicalUnit.__mul__, __div__, __rdiv__, __pow__, is_compatible"]}
{"id": "C11", "title": "A pure conversion factor is only given when it is meaningful", "statement": "Asking for the conversion factor between two units succeeds only if converting values between them is multiplication by that factor; otherwise an error is raised.", "quantifier": "all pairs of units", "why_tests_cant": "Needs the claim for all pairs, including offset units with equal scale.", "anchors": ["openmdao/units/units.py: PhysicalUnit.conversion_factor_to"]}
{"id": "C12", "title": "Declared options always hold legal values", "statement": "Whatever sequence of declarations, assignments, removals and reads is performed, every option's stored value satisfies its declared constraints: it is one of the allowed values if an enumeration was declared, otherwise it has the declared type and is neither below the lower nor above the upper bound; an operation that raises leaves the dictionary unchanged; reading an undeclared option raises.", "quantifier": "every finite sequence of operations on an options dictionary, including failing ones", "why_tests_cant": "Histories are unbounded and failing operations interleave with successful ones.", "anchors": ["openmdao/util/options.py: OptionsDictionary.add_option, __setitem__, __getitem__, get, remove_option, _check"]}
{"id": "C13", "title": "Options locked by setup cannot change afterwards", "statement": "Once setup has locked the options, no sequence of operations changes the value of an option declared lock-on-setup.", "quantifier": "every sequence of operations after setup, on this and other option dictionaries", "why_tests_cant": "The lock is process-global state; only particular interleavings with other dictionaries expose the hole.", "anchors": ["openmdao/util/options.py: OptionsDictionary.__init__, _check", "openmdao/core/problem.py: Problem.setup"]}
{"id": "C14", "title": "A deprecated option name is an alias of its replacement", "statement": "Reading or writing an option through its deprecated name has exactly the effect of using the new name, through every access method.", "quantifier": "every dictionary with deprecations, every value, every access method", "why_tests_cant": "All dictionaries and histories.", "anchors": ["openmdao/util/options.py: OptionsDictionary._add_deprecation, __getitem__, __setitem__, get, __contains__"]}
{"id": "C15", "title": "Promoted names identify variables", "statement": "After setup succeeds, no two outputs of a group share a promoted name, each variable's promoted name maps back to it, a promoted variable is addressed by its own name in the group and a non-promoted one by child.name; a clash of promoted outputs is reported as an error.", "quantifier": "every hierarchy of groups and components and every assignment of promotes patterns", "why_tests_cant": "Model trees and promotion patterns are unbounded.", "anchors": ["openmdao/core/group.py: Group._setup_variables, Group._promoted_name", "openmdao/core/system.py: System._promoted"]}
{"id": "C16", "title": "Every connected input has exactly one source", "statement": "After connection processing, every connected parameter has exactly one source, which is an output or state reachable from it through the declared (explicit or promoted) connections; if two different outputs reach the same parameter setup reports an error; a parameter reached by no output is reported as unconnected together with every parameter connected to it.", "quantifier": "every set of parameters, outputs and connections", "why_tests_cant": "Connection graphs are unbounded.", "anchors": ["openmdao/core/problem.py: Problem._setup_connections, _add_implicit_connections", "openmdao/core/group.py: Group._get_explicit_connections"]}
{"id": "C17", "title": "Explicit execution order is a permutation", "statement": "Setting a group's execution order succeeds exactly when the given names are a duplicate-free listing of all subsystems; then subsystems run in that order; otherwise an error is raised and the order is unchanged.", "quantifier": "every set of subsystems and every requested list of names", "why_tests_cant": "All lists of names.", "anchors": ["openmdao/core/group.py: Group.set_order"]}
{"id": "C18", "title": "Breaking cycles leaves an acyclic graph", "statement": "The automatic ordering breaks cycles by removing only edges that lie on cycles, the remaining graph is acyclic, every removed edge is reported exactly once, and the returned order lists every subsystem once with sources before targets along all remaining edges.", "quantifier": "every finite directed graph of subsystems", "why_tests_cant": "Graphs are unbounded; termination and acyclicity are global properties.", "anchors": ["openmdao/util/graph.py: break_strongly_connected", "openmdao/core/group.py: Group.list_auto_order, Group._break_cycles"]}
{"id": "C19", "title": "Path name arithmetic", "statement": "The common ancestor of two absolute names is the longest dotted prefix shared by both; the name of a variable relative to an ancestor system re-joined with the ancestor gives the absolute name; the nearest child of an ancestor is the ancestor extended by exactly one path element of the descendant.", "quantifier": "all dotted names", "why_tests_cant": "All pairs of strings, in particular names that are prefixes of each other as strings but not as paths.", "anchors": ["openmdao/util/string_util.py: get_common_ancestor, nearest_child, name_relative_to"]}
{"id": "C20", "title": "Driver scaling is a bijection between model and driver space", "statement": "Setting a design variable to a driver value and reading it back returns the same driver value, the model receives value/scaler - adder, and setting the value just read leaves the model unchanged.", "quantifier": "all values, adders and non-zero scalers, scalar or array, with or without an index subset", "why_tests_cant": "Real-valued domain and arbitrary index subsets.", "anchors": ["openmdao/core/driver.py: Driver.set_desvar, Driver._get_distrib_var, Driver.get_desvars"]}
{"id": "C21", "title": "Scaled bounds mean the same thing as the original bounds", "statement": "A model value lies within the declared lower and upper bounds of a design variable (or constraint) iff its driver value lies within the bounds handed to the optimizer.", "quantifier": "all values, bounds, adders and scalers", "why_tests_cant": "Real-valued domain; sign of the scaler matters.", "anchors": ["openmdao/core/driver.py: Driver.add_desvar, Driver.add_constraint"]}
{"id": "C22", "title": "Setting one element of a design variable touches only that element", "statement": "Setting a design variable with an element index changes exactly that element of the model variable.", "quantifier": "all vectors, all indices, all values", "why_tests_cant": "All indices, including index zero.", "anchors": ["openmdao/core/driver.py: Driver.set_desvar"]}
{"id": "C23", "title": "Constraint registration and filtering", "statement": "A constraint is accepted iff it has not been added before and it declares equals or at least one of lower/upper but not both kinds; filtering by type (eq/ineq) and by linearity partitions the registered constraints: each is returned by exactly one of the filters.", "quantifier": "every sequence of constraint registrations", "why_tests_cant": "All sequences of registrations with all argument combinations.", "anchors": ["openmdao/core/driver.py: Driver.add_constraint, Driver.get_constraints"]}
{"id": "C24", "title": "Constraints handed to the SciPy optimizer are equivalent to the declared ones", "statement": "The list of scalar constraint functions handed to SciPy (satisfied when zero for equality, non-negative for inequality) is satisfied iff every element of every declared constraint satisfies its equality or its lower and upper bound, and the gradient returned for each function is the derivative of that function, taken from the right row of the total Jacobian.", "quantifier": "every list of constraints (equality, one-sided, two-sided, array valued with scalar or array bounds) and all values", "why_tests_cant": "All mixes and orders of constraint sizes.", "anchors": ["openmdao/drivers/scipy_optimizer.py: ScipyOptimizer.run, _confunc, _congradfunc"]}
{"id": "C25", "title": "Nonlinear Gauss-Seidel stops, and success means convergence", "statement": "The solver performs at most maxiter sweeps; if it reports success then one of its tolerances was met at the final iterate and the final residual is not NaN; with err_on_maxiter an analysis error is raised iff the solver did not converge.", "quantifier": "every residual-norm history the model can produce (including NaN and zero norms) and every option setting", "why_tests_cant": "Histories of norms are infinite sequences; NaN comparisons and the maxiter boundary are rarely hit.", "anchors": ["openmdao/solvers/nl_gauss_seidel.py: NLGaussSeidel.solve"]}
{"id": "C26", "title": "Newton stops, and success means convergence", "statement": "Newton performs at most maxiter linear solves; success implies an absolute or relative tolerance (or the step tolerance) is met and the final norm is not NaN; afterwards the group's derivative type is what it was before the solve.", "quantifier": "every residual-norm history, option setting and exception point", "why_tests_cant": "Infinite histories, NaN and exceptions thrown at arbitrary points.", "anchors": ["openmdao/solvers/newton.py: Newton.solve"]}
{"id": "C27", "title": "Line search accepts only sufficient decrease", "statement": "Backtracking takes at most maxiter reductions, the step length after k reductions is alpha*rho^k, and unless it reports failure the accepted residual norm satisfies the sufficient-decrease condition for the accepted step length.", "quantifier": "every norm history and option setting", "why_tests_cant": "Infinite histories.", "anchors": ["openmdao/solvers/backtracking.py: BackTracking.solve"]}
{"id": "C28", "title": "Bounded steps stay within bounds", "statement": "If the unknowns are within their bounds before a Newton step, they are within their bounds after the step scaled by the computed step limit, and the limit never exceeds the requested step length nor is negative.", "quantifier": "all unknown vectors, all steps, all lower/upper bounds (scalar or array), all requested step lengths", "why_tests_cant": "Real-valued domain with several simultaneously active bounds.", "anchors": ["openmdao/core/vec_wrapper.py: SrcVecWrapper.distance_along_vector_to_limit"]}
{"id": "C29", "title": "Aitken relaxation stays within its limits", "statement": "Every relaxation factor used by Aitken acceleration lies within the configured [min, max] interval.", "quantifier": "every history of updates", "why_tests_cant": "Infinite histories including degenerate zero updates.", "anchors": ["openmdao/solvers/nl_gauss_seidel.py: NLGaussSeidel.solve"]}
{"id": "C30", "title": "Residual evaluation of an explicit component does not disturb its outputs", "statement": "Evaluating the residuals of an explicit component leaves its outputs at their previous values and yields residual = newly computed output - current output.", "quantifier": "every component function (that does not read its own outputs) and every input and output vector", "why_tests_cant": "All component functions and values.", "anchors": ["openmdao/core/component.py: Component.apply_nonlinear"]}
{"id": "C31", "title": "Reverse-mode Jacobian application is the transpose of forward mode", "statement": "For a component with declared partial derivatives, the forward and reverse Jacobian-vector products, including the implicit -I of explicit outputs, state partials, unit scaling and missing partials, are adjoint: <dr, A(dp,du)> = <(dp,du), A^T dr>.", "quantifier": "every set of partial derivative matrices with matching shapes and all vectors", "why_tests_cant": "Infinite domain of matrices and vectors.", "anchors": ["openmdao/core/system.py: System._sys_apply_linear, System._apply_linear_jac"]}
{"id": "C32", "title": "One linear Gauss-Seidel sweep solves a feed-forward system exactly", "statement": "For a group whose subsystems only depend on earlier ones, a single sweep of the linear Gauss-Seidel solver yields the exact solution of the linear system, in forward mode (subsystems in order) and in reverse mode (reverse order) alike, from any starting guess.", "quantifier": "every number of subsystems, every block lower triangular system with exactly solvable diagonal blocks, every right-hand side", "why_tests_cant": "Unbounded numbers of subsystems and arbitrary linear operators.", "anchors": ["openmdao/solvers/ln_gauss_seidel.py: LinearGaussSeidel.solve", "openmdao/core/component.py: Component.solve_linear"]}
{"id": "C33", "title": "A converged linear Gauss-Seidel iterate solves the coupled system", "statement": "If a sweep of the linear Gauss-Seidel solver changes nothing then the current vector satisfies every block equation of the (possibly cyclic) linear system, in forward and reverse mode; conversely every solution is left unchanged by a sweep.", "quantifier": "every linear block system with invertible diagonal blocks", "why_tests_cant": "Arbitrary linear operators and sizes.", "anchors": ["openmdao/solvers/ln_gauss_seidel.py: LinearGaussSeidel.solve"]}
{"id": "C34", "title": "Forward and reverse mode give the same total derivatives", "statement": "Total derivatives assembled column by column in forward mode equal those assembled row by row in reverse mode, including the scaling of design variables and responses and index subsets.", "quantifier": "every invertible linear system, every set of design variables and responses", "why_tests_cant": "Arbitrary systems; equality of two different algorithms.", "anchors": ["openmdao/core/problem.py: Problem._calc_gradient_ln_solver, Problem.calc_gradient"]}
{"id": "C35", "title": "Finite differences leave the model unchanged and are exact on affine models", "statement": "After computing a finite-difference Jacobian every input and output holds the value it had before; for an affine model forward, backward and central differences return the exact Jacobian for every step size and step calculation.", "quantifier": "every model function, input vector, step size and difference form", "why_tests_cant": "All functions and inputs; restoration must hold for all.", "anchors": ["openmdao/core/system.py: System.fd_jacobian"]}
{"id": "C36", "title": "Parallel finite difference computes each column once", "statement": "When finite differencing is split over N processes every column of the Jacobian is computed by exactly one process, and the merged Jacobian equals the serial one.", "quantifier": "every number of processes and every list of variables and sizes", "why_tests_cant": "Unbounded process counts and sizes.", "anchors": ["openmdao/core/system.py: System.fd_jacobian", "openmdao/core/parallel_fd_group.py: ParallelFDGroup"]}
{"id": "C37", "title": "Full factorial enumerates exactly the grid", "statement": "A full-factorial study runs every combination of levels exactly once: number of cases = levels^(total number of elements), all values lie between the lower and upper bound, and the corner points are included.", "quantifier": "every list of design variables, sizes, bounds and number of levels >= 2", "why_tests_cant": "Unbounded dimensions.", "anchors": ["openmdao/drivers/fullfactorial_driver.py: FullFactorialDriver._build_runlist"]}
{"id": "C38", "title": "Latin hypercube designs stay Latin", "statement": "Every design used by the (optimized) Latin hypercube driver has exactly one sample in each bucket of each dimension, and each sample lies within the bounds of its design variable.", "quantifier": "every random seed, number of samples, design variables and mutation history", "why_tests_cant": "All random choices and mutation sequences.", "anchors": ["openmdao/drivers/latinhypercube_driver.py: _rand_latin_hypercube, _LHC_Individual.perturb, _mmlhs, LatinHypercubeDriver._build_runlist"]}
{"id": "C39", "title": "Parallel design studies run every case exactly once", "statement": "When a design-of-experiments study is divided over N groups of processes each case of the serial run list is run by exactly one group and the groups together run all of them.", "quantifier": "every number of groups and every run list", "why_tests_cant": "Unbounded.", "anchors": ["openmdao/drivers/predeterminedruns_driver.py: _distrib_build_runlist", "openmdao/drivers/latinhypercube_driver.py: _distrib_build_runlist"]}
{"id": "C40", "title": "Load-balanced concurrent evaluation handles every case exactly once", "statement": "For every timing of the workers, the load balancer evaluates every case exactly once, returns exactly one result per case (carrying either the return value or the error), stops every worker, and terminates.", "quantifier": "every number of workers >= 1, every list of cases, every interleaving", "why_tests_cant": "The number of interleavings is exponential; races are not reproducible in tests.", "anchors": ["openmdao/util/concurrent.py: concurrent_eval_lb, _concurrent_eval_lb_master, _concurrent_eval_lb_worker"]}
{"id": "C41", "title": "Multiprocessing design study records every case and terminates", "statement": "For every timing of the worker processes a design study run with multiprocessing records each case exactly once and terminates; if a case fails fatally the study still terminates.", "quantifier": "every number of workers, run list, set of failing cases and interleaving", "why_tests_cant": "Interleavings cannot be enumerated by tests; the hang requires a particular race.", "anchors": ["openmdao/drivers/predeterminedruns_driver.py: worker, PredeterminedRunsDriver._run_lb_multiproc"]}
{"id": "C42", "title": "Recorder include/exclude filters", "statement": "A variable is recorded iff its name matches some include pattern and no exclude pattern; what is written for an iteration is exactly the recorded variables present in the model.", "quantifier": "every set of patterns and variable names", "why_tests_cant": "All patterns and names.", "anchors": ["openmdao/recorders/base_recorder.py: BaseRecorder._check_path, startup, _filter_vector"]}
{"id": "C43", "title": "Iteration coordinates identify iterations", "statement": "The text form of an iteration coordinate determines the coordinate: two different iterations of a run never get the same key.", "quantifier": "every nesting of solvers and every iteration count", "why_tests_cant": "Unbounded nesting and counters.", "anchors": ["openmdao/util/record_util.py: create_local_meta, update_local_meta, format_iteration_coordinate"]}
{"id": "C44", "title": "The recorded system is recovered from the coordinate", "statement": "For every solver in the hierarchy, recording an iteration finds the filter set up for that solver's own system.", "quantifier": "every hierarchy depth", "why_tests_cant": "Hierarchies are unbounded and existing tests only use shallow ones.", "anchors": ["openmdao/recorders/base_recorder.py: BaseRecorder._get_pathname", "openmdao/util/record_util.py: create_local_meta", "openmdao/solvers/nl_gauss_seidel.py", "openmdao/solvers/run_once.py"]}
{"id": "C45", "title": "CSV rows match the header", "statement": "Every data row written by the CSV recorder has exactly the columns announced by the header, for every sequence of recorded iterations and derivatives.", "quantifier": "every sequence of record operations", "why_tests_cant": "Histories of recordings.", "anchors": ["openmdao/recorders/csv_recorder.py: CsvRecorder.record_iteration, record_derivatives"]}
{"id": "C46", "title": "Recorded cases can be read back", "statement": "After any sequence of recorded iterations and derivatives, reading a case by its identifier returns the last data recorded under that identifier.", "quantifier": "every history of recordings", "why_tests_cant": "Unbounded histories.", "anchors": ["openmdao/recorders/sqlite_recorder.py", "openmdao/recorders/sqlite_reader.py", "openmdao/recorders/case.py"]}
{"id": "C47", "title": "Metamodel training rows contain the training inputs", "statement": "The matrix handed to the surrogates has one row per training point, holding the flattened training values of all parameters one after another in declaration order, in the same layout later used for prediction.", "quantifier": "every list of scalar and array parameters and all training data", "why_tests_cant": "All mixes of parameter shapes.", "anchors": ["openmdao/components/meta_model.py: MetaModel._train, MetaModel._params_to_inputs"]}
{"id": "C48", "title": "Incremental training accumulates", "statement": "With warm restart the surrogate is trained on all training data supplied so far in order; without it only on the latest data; inconsistent numbers of training points are rejected.", "quantifier": "every history of training calls", "why_tests_cant": "Unbounded histories.", "anchors": ["openmdao/components/meta_model.py: MetaModel._train"]}
{"id": "C49", "title": "Template substitution changes exactly the requested field", "statement": "Replacing a field of a template line changes that field only: all other fields, all delimiters and all other lines are unchanged.", "quantifier": "every template, delimiter set, row, field and value", "why_tests_cant": "All texts.", "anchors": ["openmdao/util/file_wrap.py: InputFileGenerator.transfer_var, _SubHelper.replace"]}
{"id": "C50", "title": "Anchors find the requested occurrence", "statement": "Marking an anchor positions the file wrapper on the n-th line (from the current anchor forward, or from the end of the file backward) that contains the text, or raises and leaves the position unchanged.", "quantifier": "every file, text and occurrence number", "why_tests_cant": "All files and histories of anchors.", "anchors": ["openmdao/util/file_wrap.py: InputFileGenerator.mark_anchor, FileParser.mark_anchor"]}
{"id": "C51", "title": "Processor allocation in parallel groups", "statement": "Dividing the available processes among the members of a parallel group terminates, assigns every member to exactly one sub-communicator, gives each at least the minimum number of processes it requires, and never hands out more processes than available.", "quantifier": "every list of (min, max) requirements and every number of processes", "why_tests_cant": "All requirement lists.", "anchors": ["openmdao/core/parallel_group.py: ParallelGroup._setup_communicators, get_req_procs"]}
{"id": "C52", "title": "Relevance reduction is sound", "statement": "If a variable lies on a dataflow path from a design variable to a response then it is relevant for both, so skipping irrelevant variables never drops a derivative contribution.", "quantifier": "every model graph, every set of design variables and responses", "why_tests_cant": "All graphs.", "anchors": ["openmdao/core/relevance.py: Relevance._compute_relevant_vars, is_relevant"]}
{"id": "C53", "title": "Shared derivative storage never overlaps within a parallel group", "statement": "Within a group of variables of interest that are solved simultaneously the derivative vectors use disjoint parts of the shared storage, and every one fits.", "quantifier": "every grouping of variables of interest and all sizes", "why_tests_cant": "All groupings and sizes.", "anchors": ["openmdao/core/system.py: System._get_shared_vec_info"]}
{"id": "C54", "title": "Assembled Jacobian equals the matrix-free operator", "statement": "The Jacobian matrix assembled for the direct solver, multiplied by a vector, equals the matrix-free linear operator applied to the same vector.", "quantifier": "every set of components, partials and connections", "why_tests_cant": "All connection patterns.", "anchors": ["openmdao/core/group.py: Group.assemble_jacobian", "openmdao/solvers/ln_direct.py"]}
{"id": "C55", "title": "Variable declarations are validated", "statement": "A variable can be added to a component iff the name is syntactically valid and not already used as a parameter or output and setup has not happened; a rejected declaration leaves the component unchanged.", "quantifier": "every sequence of declarations", "why_tests_cant": "All names and histories.", "anchors": ["openmdao/core/component.py: Component._add_variable, _check_varname, add_param, add_output, add_state"]}
{"id": "C56", "title": "Source index subsets are validated", "statement": "A connection with source indices is accepted by setup checks only if every index is a valid position in the source and the number of indices equals the size of the target.", "quantifier": "all shapes and index lists", "why_tests_cant": "All shapes and index lists.", "anchors": ["openmdao/core/_checks.py: check_connections"]}
{"id": "C57", "title": "Response surface derivatives are the derivatives of its prediction", "statement": "For every set of trained coefficients the Jacobian returned by the response surface is the exact derivative of its prediction.", "quantifier": "all coefficient vectors, all input dimensions, all evaluation points", "why_tests_cant": "All dimensions and points.", "anchors": ["openmdao/surrogate_models/response_surface.py: ResponseSurface.predict, linearize"]}
{"id": "C58", "title": "Implicit linear system component derivatives are adjoint-consistent", "statement": "For the linear system component forward and reverse derivative products are adjoint and solving in reverse mode inverts the transpose.", "quantifier": "all matrices and vectors", "why_tests_cant": "All sizes.", "anchors": ["openmdao/components/linear_system.py: LinearSystem.apply_linear, solve_linear"]}
{"id": "C59", "title": "Distributed gathers take the owner's value", "statement": "Combining Jacobian pieces or variable ownership over processes picks, for every entry, the value of the lowest-ranked process that has it, identically on all processes.", "quantifier": "every number of processes and every distribution of variables", "why_tests_cant": "All distributions.", "anchors": ["openmdao/core/system.py: System.get_combined_jac", "openmdao/core/group.py: Group._get_owning_ranks"]}
{"id": "C60", "title": "Derivative mode selection", "statement": "The derivative mode is the explicitly requested one, else the linear solver's fixed one, else reverse iff there are more design variables than responses.", "quantifier": "all options and variable sizes", "why_tests_cant": "Decision table over unbounded sizes.", "anchors": ["openmdao/core/problem.py: Problem._mode"]}
{"id": "C61", "title": "The default step size follows the derivative type until the user sets one", "statement": "After any sequence of assignments to a system's derivative options the step size in force is the last legal step size the user assigned; as long as there is none, it is the default belonging to the last of the types finite difference or complex step that was selected.", "quantifier": "every finite sequence of assignments, accepted or refused, before and after setup", "why_tests_cant": "Histories are unbounded and interleave accepted and refused assignments.", "anchors": ["openmdao/core/system.py: DerivOptionsDict.__setitem__"]}
{"id": "C62", "title": "Optimizer vector, bounds and model values line up", "statement": "The design vector given to the SciPy optimizer holds the design variables one after another; splitting a vector proposed by the optimizer assigns to every design variable exactly its own part, and entry k of the bounds list is the (lower, upper) bound of the element stored at entry k of the vector.", "quantifier": "every list of design variables, sizes, scalar or array bounds", "why_tests_cant": "Tests use one or two scalar design variables; the offset arithmetic must hold for every list of sizes.", "anchors": ["openmdao/drivers/scipy_optimizer.py: ScipyOptimizer.run, _objfunc"]}
{"id": "C63", "title": "An unknown outside its bounds is put back on the bound", "statement": "With bound enforcement an unknown that lies outside its bounds when a Newton step is limited is moved exactly onto the violated bound by that step, whatever the step is.", "quantifier": "all values, steps, bounds with lower <= upper and requested step lengths", "why_tests_cant": "The behaviour depends on signs and zeros of distances and steps; tests use a few values.", "anchors": ["openmdao/core/vec_wrapper.py: VecWrapper.distance_along_vector_to_limit", "openmdao/solvers/backtracking.py"]}
{"id": "C64", "title": "src_indices compose along connection chains", "statement": "When a parameter receives its value from an output through a chain of parameter-to-parameter connections with src_indices, the index array recorded for it selects from the output exactly the entries obtained by applying the index arrays of a declared chain of connections from the output one after the other.", "quantifier": "every set of connections with index arrays, every source vector", "why_tests_cant": "Chains of any length with any index arrays; tests check single short chains.", "anchors": ["openmdao/core/problem.py: Problem._setup_connections"]}
{"id": "C65", "title": "Array substitution in a template", "statement": "Writing an array into a range of fields of a template line puts the values into those fields in order, appends the values for which there is no field, and changes nothing else in the file.", "quantifier": "every template, delimiter set, field range and array", "why_tests_cant": "Any numbers of fields and values; tests compare single outputs.", "anchors": ["openmdao/util/file_wrap.py: InputFileGenerator.transfer_array, _SubHelper.replace_array"]}
{"id": "C66", "title": "Parameters that refer to one file share one source", "statement": "Setup reports no error only if all file-reference parameters that refer to the same file are connected to one and the same output as soon as one of them is connected; and it reports none for this reason otherwise.", "quantifier": "every set of connections, parameters and file names", "why_tests_cant": "All combinations of connected and unconnected references to any number of files; tests check a few.", "anchors": ["openmdao/core/_checks.py: check_connections", "openmdao/core/fileref.py: FileRef.validate"]}
{"id": "C67", "title": "Transfer indices of distributed variables address the same entry", "statement": "In a model spread over several processes, the index arrays computed for a connection name, for every entry of the parameter, the position in the distributed source vector of exactly that entry of the source which src_indices (or, without them, the position itself) selects, and the position in the distributed parameter vector of that entry of the parameter.", "quantifier": "every number of processes, table of local sizes, owning ranks, src_indices and mode", "why_tests_cant": "The offset arithmetic runs over two tables of sizes for any number of processes; MPI tests use two or three processes and equal sizes.", "anchors": ["openmdao/core/group.py: Group._get_global_idxs"]}
{"id": "C68", "title": "Data transfer of a group delivers every connection", "statement": "A group's forward transfer to a subsystem gives every relevant parameter of that subsystem exactly the entries of its source that it selects and leaves the other parameters alone, passes exactly the pass-by-object connections of the subsystem by object; the reverse transfer adds to every source of a subsystem the contributions of all parameters it feeds; the full transfers are transposes of each other.", "quantifier": "every group: any unknowns, parameters, sizes, relevance flags, pass-by-object flags, src_indices, connections, and all vector contents", "why_tests_cant": "Arbitrary layouts of two vectors and sorted, merged index arrays; tests run a handful of models.", "anchors": ["openmdao/core/group.py: Group._setup_data_transfer, Group._transfer_data", "openmdao/core/vec_wrapper.py: SrcVecWrapper.setup, TgtVecWrapper.setup, _get_flattened_sizes"]}
{"id": "C69", "title": "Two-dimensional arrays go row by row into the template", "statement": "Writing a two-dimensional array into a template puts row k of the array into the given range of fields of the k-th line of the given range of lines, in order, and changes nothing else; a range with more lines than the array has rows is an error. Clearing a line empties exactly that line.", "quantifier": "every template, delimiter set, array, range of lines and fields", "why_tests_cant": "Any numbers of lines, fields and values; tests compare single outputs.", "anchors": ["openmdao/util/file_wrap.py: InputFileGenerator.transfer_2Darray, InputFileGenerator.clearline"]}
{"id": "C70", "title": "ExecComp declares exactly the variables of its statements", "statement": "An ExecComp declares a parameter for every variable that occurs in its statements only on right-hand sides and an output for every variable assigned to, and nothing else; the initial value is the one given by the caller, zero if none is given; a keyword that names no variable is a RuntimeError, a statement without an assignment a ValueError.", "quantifier": "every list of statements built of names, numbers, operators and function calls, every set of initial values", "why_tests_cant": "The variables are found by a regular expression in arbitrary text; tests use a few statements.", "anchors": ["openmdao/components/exec_comp.py: ExecComp.__init__, _parse_for_out_vars", "openmdao/util/string_util.py: parse_for_vars"]}
{"id": "C71", "title": "Colons in ExecComp variable names are transparent", "statement": "Variable names with colons may be used in the statements of an ExecComp: every such name is replaced by a valid python name which occurs nowhere else in the statements, so that the compiled statements are the given ones with the variables renamed one to one, and the variables found again under their own names.", "quantifier": "every list of statements and every set of variable names", "why_tests_cant": "Textual replacement of several names in arbitrary text; tests use one or two names.", "anchors": ["openmdao/components/exec_comp.py: ExecComp._to_colons, _from_colons, _valid_name"]}
{"id": "C72", "title": "ExecComp.linearize returns the derivatives of its statements", "statement": "The Jacobian blocks returned by ExecComp.linearize have one row per entry of the output and one column per entry of the parameter, and every entry differs from the partial derivative of the statements by at most a constant times the square of the complex step.", "quantifier": "every list of statements, variable values and step", "why_tests_cant": "A limit statement over all expressions and values; tests compare single numbers.", "anchors": ["openmdao/components/exec_comp.py: ExecComp.linearize, ExecComp.solve_nonlinear"]}
{"id": "C73", "title": "DirectSolver solves with the current Jacobian", "statement": "Every solve of a DirectSolver returns for every right-hand side the solution of the system with the Jacobian of the last linearization in forward mode and with its transpose in reverse mode.", "quantifier": "every history of linearizations and solves, regular Jacobian, right-hand sides and solution method", "why_tests_cant": "The matrix is cached behind a flag of the system, so the result depends on the whole history of calls; tests run one or two.", "anchors": ["openmdao/solvers/ln_direct.py: DirectSolver.solve", "openmdao/core/system.py: System._sys_linearize"]}
{"id": "C74", "title": "MultiFiMetaModel trains every level on its own data", "statement": "Training a MultiFiMetaModel gives the surrogate of every output, for every level of fidelity, one input row per training case of that level holding the values of all parameters in order, and one output row per case holding the values of that output; with warm restart the rows follow those of the trainings before.", "quantifier": "every number of levels, parameters and outputs of any sizes, any training data, any history of trainings", "why_tests_cant": "Row layout for arbitrary shapes, levels and histories; tests train one or two small models with two levels.", "anchors": ["openmdao/components/multifi_meta_model.py: MultiFiMetaModel._train, _get_name_fi"]}
{"id": "C75", "title": "A constraint's value tells whether the constraint holds", "statement": "The value computed by a ConstraintComp for a constraint with <, <=, >, >= is negative respectively at most zero exactly when the constraint holds, and zero exactly when an equality holds; a text without a comparator or with == is a ValueError.", "quantifier": "every pair of arithmetic expressions, white space around them and value of the variables", "why_tests_cant": "Textual rewriting of arbitrary expressions, including precedence; tests use one or two texts.", "anchors": ["openmdao/components/constraint.py: ConstraintComp.__init__, _combined_expr, _parse_constraint"]}
{"id": "C76", "title": "The RBF interpolator passes through its data and its gradient is its derivative", "statement": "A trained radial basis function interpolator predicts at every training point its training value, and its gradient is the partial derivative of its prediction in every input, for every choice of the basis function; too few training points are a ValueError, an unknown basis function an error.", "quantifier": "every training set, number of dimensions, neighbours, basis function and prediction point at which the order of the neighbours is definite", "why_tests_cant": "A table of twenty polynomials and their derivatives, and calculus over all points; tests sample a few points of one or two basis functions.", "anchors": ["openmdao/surrogate_models/nn_interpolators/rbf_interpolator.py: RBFInterpolator", "openmdao/surrogate_models/nn_interpolators/nn_base.py: NNBase.__init__"]}
{"id": "C77", "title": "The weighted neighbour interpolator stays within its data and its gradient is its derivative", "statement": "The prediction of the weighted interpolator lies between the smallest and the largest value at the neighbours, is the training value at every training point, and its gradient, for the number of neighbours asked for, is the partial derivative of the prediction in every input.", "quantifier": "every training set, number of neighbours, exponent, prediction point and history of predictions before", "why_tests_cant": "Inequalities and derivatives over all points, and a cache that depends on the calls before; tests sample points.", "anchors": ["openmdao/surrogate_models/nn_interpolators/weighted_interpolator.py: WeightedInterpolator"]}
{"id": "C78", "title": "The linear interpolator reproduces affine functions", "statement": "The prediction of the linear interpolator is the value of the affine function through the nearest neighbours, so that data of an affine function are reproduced everywhere and training values at training points; the gradient is the derivative of the prediction, for any number of inputs and outputs.", "quantifier": "every training set, numbers of inputs and outputs, and prediction point with neighbours in general position", "why_tests_cant": "Linear algebra over all point sets; tests sample points of one function.", "anchors": ["openmdao/surrogate_models/nn_interpolators/linear_interpolator.py: LinearInterpolator"]}
{"id": "C79", "title": "The Jacobian of the Kriging surrogate is the derivative of its prediction", "statement": "After a successful training, KrigingSurrogate.linearize returns at every point the matrix of the derivatives of the outputs of predict with respect to the inputs.", "quantifier": "every training set, hyper-parameters, number of inputs and outputs, and point", "why_tests_cant": "A statement of calculus over all points and trained states; tests compare a few entries with finite differences.", "anchors": ["openmdao/surrogate_models/kriging.py: KrigingSurrogate.predict, linearize"]}
{"id": "C80", "title": "Kriging predicts its training values", "statement": "At every training point a trained Kriging surrogate predicts the training value of every output; where the correlation matrix is regularized the difference is bounded in terms of its singular values and the nugget.", "quantifier": "every training set, nugget, hyper-parameters and singular value decomposition", "why_tests_cant": "Bounds over all data through linear algebra; tests compare with a tolerance for one function.", "anchors": ["openmdao/surrogate_models/kriging.py: KrigingSurrogate.train, _calculate_reduced_likelihood_params, predict"]}
{"id": "C81", "title": "Kriging does not depend on the units of its data", "statement": "Rescaling or shifting the inputs and outputs of the training data (inputs that vary, outputs with positive factors) leaves the success of the training unchanged, and the surrogate predicts at the rescaled point the rescaled mean and the scaled error.", "quantifier": "every training set, point, factors and offsets, nugget, decomposition and optimizer", "why_tests_cant": "A relation between two trainings for all data and factors; tests use one scaling.", "anchors": ["openmdao/surrogate_models/kriging.py: KrigingSurrogate.train, predict"]}
{"id": "C82", "title": "The error estimate of an output is its own", "statement": "With eval_rmse the Kriging surrogate returns for every output the square root of (1 - r R^-1 r) times the variance of that output, with the regularized inverse, and zero where that is negative; the other outputs have no influence on it.", "quantifier": "every training set with any number of outputs, point and hyper-parameters", "why_tests_cant": "Quantifies over all data with several outputs; tests use one output.", "anchors": ["openmdao/surrogate_models/kriging.py: KrigingSurrogate._calculate_reduced_likelihood_params, predict"]}
{"id": "C83", "title": "A Kriging prediction depends on the last training and the value of the point only", "statement": "What a Kriging surrogate predicts is determined by the data of its last successful training and the value of the point: earlier trainings and the number type of the point have no influence, a surrogate that was never trained refuses with a RuntimeError, and a failed training leaves it as it was or unusable.", "quantifier": "every history of trainings, failed ones included, and every point", "why_tests_cant": "Histories with failing steps, and all points; tests train once.", "anchors": ["openmdao/surrogate_models/kriging.py: KrigingSurrogate.train, predict", "openmdao/surrogate_models/surrogate_model.py: SurrogateModel.train, predict"]}
{"id": "C84", "title": "Complex step partial derivatives are derivatives up to the square of the step", "statement": "With deriv_options['type'] = 'cs' every entry of a component's Jacobian differs from the derivative of the output (of the scaled residual, for a component with states) with respect to the stored entry of the parameter or state by at most a constant times the square of the step size, for code that is an analytic function of that entry.", "quantifier": "every component, every value of the vectors, every parameter, state and entry, all small step sizes", "why_tests_cant": "A limit statement over all analytic components; tests compare a few components with a tolerance.", "anchors": ["openmdao/core/component.py: Component.complex_step_jacobian", "openmdao/core/vec_wrapper_complex_step.py: ComplexStepTgtVecWrapper, ComplexStepSrcVecWrapper"]}
{"id": "C85", "title": "A complex step linearization leaves the vectors as they were", "statement": "Linearizing a component by complex step changes neither its unknowns nor its residuals.", "quantifier": "every component, every value of the vectors, every step size", "why_tests_cant": "A frame condition for all components and values; tests look at the Jacobian only.", "anchors": ["openmdao/core/component.py: Component.complex_step_jacobian, apply_nonlinear", "openmdao/core/vec_wrapper_complex_step.py: ComplexStepSrcVecWrapper"]}
{"id": "C86", "title": "When Brent reports convergence the state variable is at a root up to the tolerance", "statement": "If the Brent solver reports Converged, the state variable has been left at a value between the bounds where the residual is zero, or the residual changes sign between it and another value nearer than twice the tolerance (for a continuous residual: there is a root that near).", "quantifier": "every residual function, all bounds, tolerances and iteration limits, every initial state", "why_tests_cant": "The claim is about all residual functions and all paths of the interpolation and bisection steps; tests solve two equations.", "anchors": ["openmdao/solvers/brent.py: Brent.solve, Brent._eval"]}
{"id": "C87", "title": "Brent runs the model only between the bounds and a bounded number of times", "statement": "After the initial run the Brent solver gives the state variable only values between its bounds (whatever the model does elsewhere does not matter) and runs the model at most maxiter + 2 times.", "quantifier": "every residual function, all bounds, tolerances and iteration limits", "why_tests_cant": "A test sees the points of its own equation only.", "anchors": ["openmdao/solvers/brent.py: Brent.solve, Brent._eval"]}
{"id": "C88", "title": "Brent does not hide failures", "statement": "Bounds without a change of sign are a ValueError; missing convergence is an AnalysisError exactly if err_on_maxiter is set; an exception raised by a component during the search reaches the caller; options that name no variable of the system are refused in setup.", "quantifier": "every system, every exception, all options", "why_tests_cant": "Tests raise no exception inside the search.", "anchors": ["openmdao/solvers/brent.py: Brent.setup, Brent.solve"]}
{"id": "C89", "title": "check_partial_derivatives compares the Jacobian the component supplies", "statement": "For a component that supplies its Jacobian, check_partial_derivatives finds the same J_fwd and J_rev: for every unknown and every connected param or state an array of shape (size of unknown, size of param) whose entries are the supplied partials in the units of the source and with the residual scaling, and zeros where none was supplied. A supplied array of another shape is a ValueError. For a matrix-free component whose reverse apply_linear is the transpose of the forward one, J_fwd equals J_rev.", "quantifier": "every component, all sizes, units and scalings, every Jacobian", "why_tests_cant": "The claim is about all Jacobians and layouts of the derivative vectors, and the loops reuse vectors from column to column; tests check a few components.", "anchors": ["openmdao/core/problem.py: Problem.check_partial_derivatives", "openmdao/core/system.py: System._apply_linear_jac"]}
{"id": "C90", "title": "The errors reported by check_partial_derivatives measure the supplied partials", "statement": "The report of a component has exactly the pairs for which a finite difference exists. The absolute errors of a pair are zero exactly if every supplied partial equals the finite difference, and at least the error of any single entry; a pair is flagged if an entry is off by the tolerance or more and not flagged if all partials are right. Relative errors are relative to the finite difference, not a number (and never flagged) where that is zero.", "quantifier": "every Jacobian, every finite difference, all tolerances", "why_tests_cant": "Tests look at single numbers of a report.", "anchors": ["openmdao/core/problem.py: _assemble_deriv_data, Problem.check_partial_derivatives"]}
{"id": "C91", "title": "A linear Gauss-Seidel solve does not depend on what earlier solves left behind", "statement": "The solution, the iteration count and the reported failure of LinearGaussSeidel.solve are functions of the right-hand side: the contents of the derivative vectors before the call have no effect, in forward and reverse mode and for any number of sweeps.", "quantifier": "every linearised group, every child solver, all options, all initial contents of the vectors", "why_tests_cant": "The vectors are shared between all derivative solves and are only partly cleared; tests see few sequences of solves.", "anchors": ["openmdao/solvers/ln_gauss_seidel.py: LinearGaussSeidel.solve"]}
{"id": "C92", "title": "ScipyGMRES solves the linear system of the group", "statement": "ScipyGMRES.solve hands scipy's gmres a fixed operator: every product is a product with the matrix of the group (its transpose in reverse mode) and every preconditioner call is one function of the vector, however the calls are interleaved. The vectors returned are those gmres finds for that matrix, and one returned without a failure message has a residual within the tolerance.", "quantifier": "every linearised group, every run of gmres, every preconditioner that is a function of its right-hand side, any number of right-hand sides", "why_tests_cant": "Operator and preconditioner work on the same shared vectors, and the sequence of calls is chosen by scipy.", "anchors": ["openmdao/solvers/scipy_gmres.py: ScipyGMRES.solve, _precon", "openmdao/solvers/solver_base.py: MultLinearSolver.mult"]}
{"id": "C93", "title": "Failures of GMRES are raised", "statement": "ScipyGMRES.solve raises exactly for the first right-hand side for which gmres breaks down (RuntimeError), does not converge while err_on_maxiter is set (AnalysisError), or whose preconditioner raises. With err_on_maxiter no unconverged vector is returned.", "quantifier": "all right-hand sides, all runs of gmres", "why_tests_cant": "Failures depend on the run of gmres; tests provoke one.", "anchors": ["openmdao/solvers/scipy_gmres.py: ScipyGMRES.solve"]}
{"id": "C94", "title": "Group.solve_linear solves for every variable of interest", "statement": "After Group.solve_linear every variable of interest has the solution of the linear system for its own right-hand side: the answer of the linear solver of the group, zero for a right-hand side below 1e-15, and minus the right-hand side in a group that is finite-differenced. Vectors of other variables of interest are unchanged.", "quantifier": "all lists of variables of interest, all right-hand sides, every solver", "why_tests_cant": "Only parallel derivatives solve for several variables at once; tests have few combinations with finite-differenced groups.", "anchors": ["openmdao/core/group.py: Group.solve_linear"]}
{"id": "C95", "title": "Assigning to a variable of a problem", "statement": "prob[name] = value for an unknown copies the value and changes no other variable. For the promoted name of an input without a source the value reaches every input connected with it and no other variable, and prob[name] then returns it. Names of connected inputs and unknown names are refused with KeyError, arrays of a wrong size with ValueError. Changing the array later does not change the problem.", "quantifier": "all problems, names and values, all sets of connected inputs", "why_tests_cant": "The sets of inputs connected without a source are found by a graph search; tests use one or two inputs.", "anchors": ["openmdao/core/problem.py: _get_root_var, _set_root_var, Problem._setup_connections", "openmdao/core/system.py: System._rec_get_param, _rec_set_param"]}
{"id": "C96", "title": "Setup reports differing units and initial values of inputs that share no source", "statement": "Problem.setup reports an error exactly if inputs connected with each other and without a source have different units or different initial values (type or shape, and entries).", "quantifier": "all sets of connected inputs, all units and values", "why_tests_cant": "All pairs of units, shapes and float values have to be compared, including NaN; tests compare a few.", "anchors": ["openmdao/core/problem.py: Problem._check_input_diffs"]}
{"id": "C97", "title": "Inputs used before they are set are found", "statement": "The inputs reported as used before they are set, and the components rerun when residuals are evaluated, are exactly those with a connection from an output that has not been computed when the component runs. The component of a variable is the innermost system that contains it; RuntimeError exactly if there is none.", "quantifier": "all trees of systems in all orders of execution, all connections", "why_tests_cant": "It depends on the order of all systems and on names that contain each other.", "anchors": ["openmdao/core/problem.py: Problem._get_ubc_vars, Problem.setup"]}
{"id": "C98", "title": "Sub-index sparsity loses no derivative in pyOptSparseDriver", "statement": "For every model and every connection with src_indices from a design variable, the sparse block that pyOptSparseDriver hands to the optimizer for a constraint describes the same matrix as the full Jacobian of that constraint: the columns it drops are zero. The pattern declared with the constraint is the one of every later gradient.", "quantifier": "for all models, connection index lists, design variable indices, constraint functions and points", "why_tests_cant": "Which columns are kept follows from set operations on connections and relevance of the whole model; a test looks at one model, usually one where no parameter is promoted.", "anchors": ["openmdao/drivers/pyoptsparse_driver.py:174-201", "openmdao/drivers/pyoptsparse_driver.py:351-428", "openmdao/drivers/pyoptsparse_driver.py:567-586"]}
{"id": "C99", "title": "pyOptSparseDriver's callbacks tell the optimizer whether an evaluation succeeded", "statement": "The function callback returns fail = 0 only together with the responses of the model, run without error, at the design the optimizer asked for; it returns 1 in all other cases. The gradient callback returns fail = 1 whenever the gradient could not be computed; after an AnalysisError it returns zeros of the right shape.", "quantifier": "for all designs, models and exceptions raised at any step", "why_tests_cant": "Exceptions can come from setting, running, reading, recording or differentiating, and optimizers swallow them; tests raise one of them once.", "anchors": ["openmdao/drivers/pyoptsparse_driver.py:430-496", "openmdao/drivers/pyoptsparse_driver.py:498-600"]}
{"id": "C100", "title": "active_tol leaves out only constraints that are far from their bounds", "statement": "With active_tol set, a row of the gradient of a constraint is replaced by zeros only if the value of that entry is farther than the tolerance from every bound of the constraint, on the feasible side.", "quantifier": "for all values, bounds, tolerances and groups of constraints", "why_tests_cant": "One-sided and two-sided constraints, equalities and parallel groups take the same code; a test covers one combination with one value.", "anchors": ["openmdao/drivers/pyoptsparse_driver.py:525-544", "openmdao/core/problem.py:1685-1697"]}
{"id": "C101", "title": "Linear constraints mean the same to pyOptSparse and to the user", "statement": "A design satisfies a constraint for the optimizer if and only if the constraint of the user holds there, whether it is an equality, has one or two bounds, and whether it is declared linear or not.", "quantifier": "for all designs, constraint functions, bounds, scalers and adders", "why_tests_cant": "The optimizer evaluates a linear constraint from its Jacobian alone; whether that agrees for all designs cannot be seen from the solutions of a few problems.", "anchors": ["openmdao/drivers/pyoptsparse_driver.py:212-282"]}
{"id": "C102", "title": "After a pyOptSparse run the model is at the optimizer's solution", "statement": "When run returns, every design variable holds the value of the optimizer's solution and the model has been run at it without error; exit_flag is 1 exactly if the optimizer reported a status of at most 2.", "quantifier": "for all models, solutions and statuses", "why_tests_cant": "The last point an optimizer evaluates is in general not its solution; tests compare the optimum of smooth problems, where both nearly coincide.", "anchors": ["openmdao/drivers/pyoptsparse_driver.py:331-349"]}
{"id": "C103", "title": "Running a SubProblem component is running the wrapped problem", "statement": "When solve_nonlinear of a SubProblem returns, the wrapped problem has been run once from a state in which every exposed parameter has the component's value, and the exposed unknowns and residuals of the component are those of the wrapped problem after that run. Parameters that are outputs of the wrapped problem are brought up to date and nothing else changes. If a parameter cannot be set or the run raises, the exception is passed on and the component's vectors are as before.", "quantifier": "for all wrapped problems, exposed names, values and exceptions", "why_tests_cant": "The wrapped problem has state of its own that survives between runs; a test compares the outputs of one or two runs.", "anchors": ["openmdao/components/subproblem.py:234-270"]}
{"id": "C104", "title": "linearize of a SubProblem returns the derivative of its run", "statement": "For every exposed unknown and parameter the Jacobian that linearize returns is the derivative of the unknown, as computed by solve_nonlinear, with respect to that parameter.", "quantifier": "for all wrapped problems, drivers and points", "why_tests_cant": "What solve_nonlinear computes depends on the driver of the wrapped problem; a test compares with finite differences for one driver at one point.", "anchors": ["openmdao/components/subproblem.py:272-307"]}
{"id": "C105", "title": "SubProblem exposes as parameters exactly the variables that can be set", "statement": "Setup of a SubProblem succeeds if and only if every exposed parameter is an unconnected input or the output of an IndepVarComp of the wrapped problem and every exposed unknown exists there. A name that is neither an input nor an output gives RuntimeError, the output of another component TypeError.", "quantifier": "for all wrapped problems and lists of names", "why_tests_cant": "Which names are legal depends on the connections of the wrapped problem; tests try one legal and one illegal name.", "anchors": ["openmdao/components/subproblem.py:162-166", "openmdao/components/subproblem.py:168-232"]}
{"id": "C106", "title": "Passing a file variable copies the file", "statement": "After data passing from a source FileRef to a target FileRef, the target's file has the contents of the source's file, the source's file is as it was, and no other file has changed. A source that is not a FileRef raises TypeError, a binary flag that differs ValueError, and after any exception all files are as before.", "quantifier": "for all paths, contents, metadata and states of the file system", "why_tests_cant": "Two paths may lead to one file in many ways (., .., links, relative parents); tests use two plain names.", "anchors": ["openmdao/core/fileref.py:44-96"]}
{"id": "C107", "title": "ExternalCode reports every failure of the external program", "statement": "solve_nonlinear of an ExternalCode returns if and only if the command is not empty, its program is found, all input files exist, the program ends in time with code zero and then all output files exist; the output files are those of this run. Failures raise RuntimeError or, if fail_hard is off, AnalysisError; a timeout raises AnalysisError and a missing program ValueError. return_code is the exit code of the program if it ended.", "quantifier": "for all commands, options, file systems and outcomes of the program", "why_tests_cant": "Tests start one or two real programs; combinations of missing files, codes, timeouts and files left by earlier runs are not covered.", "anchors": ["openmdao/components/external_code.py:133-186", "openmdao/components/external_code.py:188-220"]}
{"id": "C108", "title": "A command is stopped only after its timeout, and then soon", "statement": "A command that ends within the timeout, or at any time if the timeout is zero, is never stopped, and its exit code is returned at most one poll delay after it ended. A command that does not end is stopped at the latest two poll delays after the timeout. The default poll delay is a hundredth of the timeout between 0.1 and 10 seconds.", "quantifier": "for all timeouts, poll delays and running times", "why_tests_cant": "Off-by-one errors in the number of polls show only for running times near the timeout; tests use a command that is much faster or much slower.", "anchors": ["openmdao/util/shell_proc.py:111-151"]}
{"id": "C109", "title": "find_files returns exactly the matching files", "statement": "find_files returns a file if and only if it lies below a start directory, its name matches and is not excluded, and the start directory and all directories between match and are not excluded. No file is returned twice for one start directory.", "quantifier": "for all directory trees, patterns and start directories", "why_tests_cant": "Pruning interacts with nesting: a test looks at one small tree.", "anchors": ["openmdao/util/file_util.py:61-127", "openmdao/util/file_util.py:156-181"]}
{"id": "C110", "title": "find_up finds the nearest directory above", "statement": "find_up returns the path of the name in the nearest directory at or above the start that has it, and None if and only if no directory from the start to the root has it.", "quantifier": "for all start paths and file systems", "why_tests_cant": "Tests start in a temporary directory given by an absolute path.", "anchors": ["openmdao/util/file_util.py:129-154"]}
{"id": "C111", "title": "setup reports every group whose linear solver cannot solve it", "statement": "setup reports cycles for a group if and only if it has a LinearGaussSeidel with maxiter 1, no group above it has an iterating or direct linear solver, and children of it depend on each other. It reports implicit states if and only if there is a state that no group above solves for and whose component does not solve itself, and names exactly those states. Complex step is reported on every group but the root and with every nonlinear solver that needs derivatives. The check itself never fails, whether the problem is set up for the first time or again, alone or as a sub-problem.", "quantifier": "for all trees of groups, solvers, graphs and states", "why_tests_cant": "The result depends on the whole chain of ancestors of each group; tests use trees of depth two.", "anchors": ["openmdao/core/problem.py:687-795", "openmdao/core/problem.py:2704-2716", "openmdao/components/subproblem.py:130-166"]}
{"id": "C112", "title": "The report on execution order is exact", "statement": "check_setup says that a system should run after another one if and only if it runs before it although it depends on it, after breaking cycles. It reports neither cycles nor systems out of order if and only if every connection between children goes forward in the execution order.", "quantifier": "for all dependency graphs and execution orders", "why_tests_cant": "Tests look at one or two graphs; indirect dependencies through several systems are where a wrong search misses reports.", "anchors": ["openmdao/core/problem.py:901-952"]}
{"id": "C113", "title": "setup chooses an execution order that follows the connections", "statement": "After setup, a group whose order the user has not set runs every child once, in an order in which every connection between children goes forward except those that lie on a cycle and were broken. An order set by the user is kept.", "quantifier": "for all groups, graphs and sequences of setup", "why_tests_cant": "Needs an argument over all graphs, and over repeated setups with changed connections.", "anchors": ["openmdao/core/problem.py:610-624", "openmdao/core/group.py:1090-1158", "openmdao/core/group.py:1193-1210"]}
{"id": "C114", "title": "A load balanced design study over MPI runs and records every case once", "statement": "With load balancing, whatever the speed of the processes: the study ends and no process waits for ever; every process runs exactly the cases of its group; each case of the run list goes to one group and is recorded once, with the values that the processes of the group found in that case; it is marked as failed if and only if one of them failed. A case in which a process raised a fatal error is not recorded, and only after such an error may cases be left out. Rank 0 is the master and every other rank works for exactly one group.", "quantifier": "for all numbers of processes, divisions into groups, run lists, outcomes and interleavings", "why_tests_cant": "The order in which messages arrive cannot be controlled in a test; with groups of several processes the result depends on all interleavings.", "anchors": ["openmdao/drivers/predeterminedruns_driver.py:112-195", "openmdao/drivers/predeterminedruns_driver.py:526-546", "openmdao/drivers/predeterminedruns_driver.py:693-841"]}
{"id": "C115", "title": "An exception in a case ends a parallel design study on every process", "statement": "When a case of a design study over MPI raises an exception other than AnalysisError, the study ends with an exception on every process. Otherwise it ends normally on every process, and each case has been recorded once.", "quantifier": "for all numbers of processes, run lists, kinds of recorders, outcomes and interleavings", "why_tests_cant": "A process that waits for ever in a collective call shows up only for particular numbers of cases and processes and particular failing cases.", "anchors": ["openmdao/drivers/predeterminedruns_driver.py:447-523", "openmdao/drivers/predeterminedruns_driver.py:651-678", "openmdao/recorders/recording_manager.py:162-232"]}
{"id": "C116", "title": "calc_gradient by finite differences has the layout and the scaling of the analytic gradient", "statement": "calc_gradient with finite differences returns, for every requested unknown and independent variable, the difference quotients of the model with the step and form declared for the variable, times the driver scale factors of the two variables. In array format there is one row per selected entry of every unknown and one column per selected entry of every independent variable, in the order of the lists; in dict format J[u][x] is the block of the pair, restricted to the given sparsity. The values of the model are restored. For affine models the result is the exact gradient.", "quantifier": "for all models, name lists, promoted and connected names, indices of interest, scale factors, sparsity patterns, steps and forms", "why_tests_cant": "Tests fix one model and one pair of lists; whether blocks land in the right rows and are scaled once depends on the combination of lists, sizes and indices.", "anchors": ["openmdao/core/problem.py:1238-1480", "openmdao/core/system.py:488-797"]}
{"id": "C117", "title": "FileParser.transfer_var returns the field as number or text", "statement": "transfer_var(row, field) returns the value of the word with number field, counted from 1, in the line row lines from the anchor: an int for an integer literal, a float for a literal with a point or an exponent, nan and inf for their spellings, and the word itself otherwise. Words are separated by the delimiters. A field beyond the line and a row beyond the file raise IndexError. What InputFileGenerator has written into a field is read back as that field, and the other fields keep their values.", "quantifier": "for all files, lines, delimiters, words, rows and fields", "why_tests_cant": "The tokens of the parser are tried in an order and match prefixes of words; tests use a few lines, and whether a number is cut short or a word is split depends on its spelling and on the delimiters.", "anchors": ["openmdao/util/file_wrap.py:98-128", "openmdao/util/file_wrap.py:413-612", "openmdao/util/file_wrap.py:829-880"]}
{"id": "C118", "title": "FileParser.transfer_keyvar reads from the line of the requested occurrence of the key", "statement": "transfer_keyvar(key, field, occurrence) returns field number field of the occurrence-th line, at or behind the anchor, that contains the key; negative occurrences are counted from the end of the file. Field 0 is the key. If there are fewer such lines an error is raised.", "quantifier": "for all files, anchors, keys, occurrences and fields", "why_tests_cant": "Tests search a small file from its beginning; the combination of an anchor with backward search and of missing keys is not covered by any finite set of files.", "anchors": ["openmdao/util/file_wrap.py:614-670"]}
{"id": "C119", "title": "FileParser.transfer_array and transfer_2Darray return the fields of the block", "statement": "transfer_array returns the values from field fieldstart of row rowstart to field fieldend of row rowend in reading order. transfer_2Darray returns one row of the array for each line, with the values of the fields from fieldstart to fieldend. Data that do not fit raise an error.", "quantifier": "for all files, rows, fields and numbers of lines", "why_tests_cant": "Tests read regular blocks that exist; what happens for ragged rows, text among numbers or rows behind the end of the file depends on numpy broadcasting and on a caught exception.", "anchors": ["openmdao/util/file_wrap.py:672-827"]}
{"id": "C120", "title": "FileParser skips comments and keeps all other text", "statement": "With comment characters set, set_file keeps exactly the lines that do not begin with the full-line comment character, each without the part from the end-of-line comment character on. Everything else is kept unchanged.", "quantifier": "for all files and comment characters", "why_tests_cant": "Tests use one file for each setting; the claim is about what is not removed from arbitrary lines.", "anchors": ["openmdao/util/file_wrap.py:439-458"]}
{"id": "C121", "title": "Groups of variables of interest and relevance reduction do not change total derivatives", "statement": "Declaring design variables or responses to be differentiated together (parallel_derivs), or restricting the linear solves to the relevant variables, only changes how calc_gradient computes: J[u][p] holds the same scaled total derivatives for every requested pair, in forward and in reverse mode, for any subset of the variables that is requested and with any linear solver at the root.", "quantifier": "for all models, groupings, relevance sets, requested lists, indices of interest, scale factors, modes and solvers", "why_tests_cant": "Tests group two scalar variables of one model under MPI; whether each solution is stored under the right variable depends on keys, group sizes and request lists.", "anchors": ["openmdao/core/problem.py:1482-1811", "openmdao/core/relevance.py:62-103", "openmdao/core/vec_wrapper.py:527-567"]}
{"id": "C122", "title": "Sparsity patterns and inactive constraints only leave out what they name", "statement": "calc_gradient in dict format with a sparsity pattern returns exactly the blocks the pattern lists, with the same values as without the pattern. With inactive constraints given, in reverse mode exactly the rows declared inactive are zero and every other row is as without; in forward mode nothing changes.", "quantifier": "for all models, patterns, sets of inactive rows, groupings, requested lists, indices and modes", "why_tests_cant": "Tests use one pattern and one inactive constraint; the combination with groups of constraints is never tried.", "anchors": ["openmdao/core/problem.py:1569-1575", "openmdao/core/problem.py:1688-1726"]}
{"id": "C123", "title": "The meaning of a unit string does not depend on what was looked up before", "statement": "A unit string such as 'km/s' gives the same unit, or the same error, whatever unit strings the program converted or declared before; a name of the library always means the unit of the library, and a name is never given a unit that is not one of its readings as prefixes before a unit of the library.", "quantifier": "for all libraries, unit strings and histories of lookups, successful or not", "why_tests_cant": "Tests look up a handful of strings in one order; prefixed units are added to the library on the fly, so the result can depend on every earlier lookup in the process.", "anchors": ["openmdao/units/units.py:619-667"]}
{"id": "C124", "title": "A unit library may define its units in any order", "statement": "If a unit library loads, it also loads with its definitions listed in any other order, giving the same units; after loading every definition holds for the units of the library and units it does not define are unchanged.", "quantifier": "for all libraries, sets of definitions by expression, orders of definitions and iteration orders of the retry set", "why_tests_cant": "The shipped library is one file in one order; user libraries may be arranged differently and python iterates over the retry set in an unspecified order.", "anchors": ["openmdao/units/units.py:675-709", "openmdao/units/units.py:787-833"]}
{"id": "C125", "title": "The printed name of a unit denotes the unit", "statement": "The name that a unit computed by multiplying, dividing and raising units to powers is printed with is a unit string that gives the same unit.", "quantifier": "for all unit expressions over any library", "why_tests_cant": "Tests compare a few names with literals; the name is built by a separate dictionary of powers that every operation has to keep consistent with factor and powers.", "anchors": ["openmdao/units/units.py:595-612", "openmdao/units/units.py:34-99", "openmdao/units/units.py:437-497"]}
{"id": "C126", "title": "Arithmetic and comparison of quantities do not depend on the units they are expressed in", "statement": "Two quantities are equal exactly if they have the same dimensions and the same value in base units, quantities of the same dimensions compare as their values in base units, and products, quotients, powers and conversion to base units of quantities have the product, quotient, power and the same value in base units.", "quantifier": "for all numbers and units", "why_tests_cant": "Tests compare a few pairs of lengths; the claim relates all pairs of representations of a quantity.", "anchors": ["openmdao/units/units.py:149-217", "openmdao/units/units.py:296-321"]}
{"id": "C127", "title": "Groups of parallel derivatives split the variables of interest", "statement": "However design variables, objectives, constraints and groups were added to a driver, desvars_of_interest and outputs_of_interest return every variable exactly once, two variables in one tuple exactly if they were grouped by parallel_derivs, and parallel_derivs refuses groups that overlap, mix design variables with others or name unknown variables.", "quantifier": "for all sequences of calls that add variables and groups", "why_tests_cant": "Tests declare one or two groups of two variables; overlaps of the roles of a variable and later additions are not tried.", "anchors": ["openmdao/core/driver.py:201-277", "openmdao/core/driver.py:291-368", "openmdao/core/driver.py:541-572"]}
{"id": "C128", "title": "The gradient a driver gets is that of its scaled functions", "statement": "Driver.calc_gradient returns for every response and design variable the total derivatives multiplied by the scaler of each entry of the response and divided by the scaler of each entry of the design variable, for the declared indices, by forward, reverse and finite difference derivatives, so that optimizers see functions and gradients that belong together.", "quantifier": "for all models, scalers (numbers or arrays), sizes, declared indices and derivative modes", "why_tests_cant": "Tests use scalar scalers or a scalar objective with an array of scalers; whether rows and columns are scaled the right way shows only for arrays of responses and design variables.", "anchors": ["openmdao/core/driver.py:136-156", "openmdao/core/driver.py:186-199", "openmdao/core/problem.py:1441-1447", "openmdao/core/problem.py:1757-1792"]}
{"id": "C129", "title": "Inputs and outputs of a finite differenced group", "statement": "When a group is finite differenced as a whole, the inputs that are perturbed are exactly the connected params below the group whose source lies outside it and which are not passed by object, plus those driven by an IndepVarComp inside, and the outputs that are recorded are exactly its unknowns that are neither passed by object nor outputs of an IndepVarComp, whatever the names of groups, components and variables and however deep the nesting.", "quantifier": "for all model trees, positions of the group, names and sets of connections", "why_tests_cant": "Tests use two or three groups whose names are not prefixes of each other; the selection is done by comparing slices of strings.", "anchors": ["openmdao/core/group.py:593-645", "openmdao/core/group.py:165-184"]}
{"id": "C130", "title": "The Jacobian of a finite differenced group", "statement": "Linearising a group with deriv_options type 'fd' gives, for every output and every input of the group, the matrix of difference quotients over a run of the whole group, which is the exact Jacobian if the outputs are affine in the inputs.", "quantifier": "for all groups at any place of a model, all inputs from outside or from an IndepVarComp inside, all forms and step sizes", "why_tests_cant": "Tests difference a group with one input that comes from outside; names that coincide with names elsewhere in the model and sources inside the group are not tried.", "anchors": ["openmdao/core/system.py:488-798", "openmdao/core/system.py:896-959"]}
{"id": "C131", "title": "Finite differenced groups in the linear solve", "statement": "In the total derivatives computed by linear Gauss-Seidel a finite differenced group counts with its Jacobian: the solution satisfies the linear system of the whole model, in forward and in reverse mode, for every variable of interest and also when several variables of interest are solved together.", "quantifier": "for all feed-forward models with any number of finite differenced groups, all right-hand sides and sets of variables of interest", "why_tests_cant": "Tests of parallel derivatives use components only, so a finite differenced group never sees more than one variable of interest.", "anchors": ["openmdao/core/group.py:888-953", "openmdao/solvers/ln_gauss_seidel.py:73-236", "openmdao/core/component.py:691-723"]}
{"id": "C132", "title": "Co-kriging passes through the samples of the highest fidelity", "statement": "A multi-fidelity co-kriging surrogate, trained on nested samples and queried at a sample of the highest level, returns the observed value with standard deviation 0 (up to the nugget); at any point its mean is the prediction of the levels below times the rho regression plus the regression plus a combination of the correlations with the samples, with coefficients that reproduce the data of that level.", "quantifier": "for all numbers of levels, nested sample sets, regression models, correlation parameters and points", "why_tests_cant": "Tests compare a few predictions with stored numbers for one data set; whether the model interpolates depends on linear algebra over all data sets, and on which call of the likelihood the optimizer made last.", "anchors": ["openmdao/surrogate_models/multifi_cokriging.py:322-526", "openmdao/surrogate_models/multifi_cokriging.py:597-701"]}
{"id": "C133", "title": "Predicted error of co-kriging", "statement": "The mean squared error estimated by co-kriging is never negative, so the reported standard deviation is its square root, and a trained surrogate gives a prediction at every point.", "quantifier": "for all training data, numbers of levels, correlation parameters and points", "why_tests_cant": "Tests look at single points; the absolute value in the code hides a negative estimate.", "anchors": ["openmdao/surrogate_models/multifi_cokriging.py:597-701", "openmdao/surrogate_models/multifi_cokriging.py:836-841"]}
{"id": "C134", "title": "Co-kriging with one level is the best linear unbiased predictor", "statement": "With one level of fidelity the predicted mean is a linear combination of the observed values that reproduces every function of the regression, the predicted mean squared error is its error variance under the correlation model, and no other such combination has a smaller one.", "quantifier": "for all sample sets, regression models, correlation parameters and points", "why_tests_cant": "Optimality is a statement about all other predictors.", "anchors": ["openmdao/surrogate_models/multifi_cokriging.py:440-526", "openmdao/surrogate_models/multifi_cokriging.py:627-658"]}
{"id": "C135", "title": "Co-kriging does not depend on the units of the outputs", "statement": "Training with all outputs of all levels replaced by a*y+b succeeds if training with y does, and the predictions are a times the mean plus b, with |a| times the standard deviation.", "quantifier": "for all a other than 0, all b, training data of any number of levels, regressions that contain the constants and the functions of rho_regr, given correlation parameters, and points", "why_tests_cant": "Tests use one set of units.", "anchors": ["openmdao/surrogate_models/multifi_cokriging.py:322-437", "openmdao/surrogate_models/multifi_cokriging.py:440-526", "openmdao/surrogate_models/multifi_cokriging.py:597-701"]}
{"id": "C136", "title": "Which training data co-kriging accepts", "statement": "With given correlation parameters training succeeds if and only if there is a level, every level has at least two samples, no two of them equal, not more samples than the level below, more samples than regression coefficients, coefficients determined by the samples, and outputs that are not themselves an exact regression.", "quantifier": "for all lists of levels, regression models and positive correlation parameters of a fitting length", "why_tests_cant": "Tests contain two of the refused cases; that nothing else is refused, in particular that the correlation matrix always has a Cholesky factor, needs a proof.", "anchors": ["openmdao/surrogate_models/multifi_cokriging.py:322-437", "openmdao/surrogate_models/multifi_cokriging.py:440-526"]}
{"id": "C137", "title": "Training a co-kriging surrogate again", "statement": "Training a surrogate that has been trained before gives the same surrogate as training a new one with the same arguments and the same data.", "quantifier": "for all pairs of training data, arguments and optimizers", "why_tests_cant": "Tests train each surrogate once.", "anchors": ["openmdao/surrogate_models/multifi_cokriging.py:322-437", "openmdao/surrogate_models/multifi_cokriging.py:702-790"]}
{"id": "C138", "title": "Co-kriging checks the shapes of the training data", "statement": "Training data are accepted only if every level has as many outputs as samples and all levels have the same number of inputs.", "quantifier": "for all lists of arrays", "why_tests_cant": "The tests have levels of equal width only.", "anchors": ["openmdao/surrogate_models/multifi_cokriging.py:702-731"]}
{"id": "C139", "title": "Namelist files can be read back", "statement": "A file that Namelist.generate writes is read by Namelist.parse_file with the same title, the same groups in the same order, and in every group the same variables with the same values; comments and empty arrays are left out.", "quantifier": "for all titles, groups and cards whose names are words of letters and digits, with integers, floats, truth values, strings, lists, 1-D and 2-D arrays of any size", "why_tests_cant": "Tests write and read a handful of fixed files; which texts of numbers, strings, comments and names survive is a statement about all of them.", "anchors": ["openmdao/util/namelist_util.py:230-347", "openmdao/util/namelist_util.py:349-516"]}
{"id": "C140", "title": "load_model accounts for every variable of a namelist file", "statement": "load_model puts the value of each variable into the param of its name (or of its name in lower case), with rules below the containers of the group; the last card for a param counts, params without a card keep their values; empty_groups, unlisted_groups and unlinked_vars list exactly the groups without cards, the groups that cannot be loaded, and the variables without a param that are not to be ignored, in the order of the file. A number for an array param becomes an array.", "quantifier": "for all files, rules, lists of ignored names, params and values of single_group", "why_tests_cant": "Tests have one file each for the three kinds of reports; that nothing is lost for any combination of groups, rules and names needs all of them.", "anchors": ["openmdao/util/namelist_util.py:519-656"]}
{"id": "C141", "title": "find_card finds the variable", "statement": "find_card(group, name) returns the value of the variable of that name in the group of that name; ValueError if there is no such group, RuntimeError if the group has no such variable.", "quantifier": "for all files and names", "why_tests_cant": "Tests look for one variable.", "anchors": ["openmdao/util/namelist_util.py:658-677"]}
{"id": "C142", "title": "Namelist files written by hand are read as Fortran would read them", "statement": "In a namelist group that begins with & or $, parse_file reads several assignments on a line, arrays that go on over several lines (with or without a comma at the end of the line), repeat counts (m = 3*2.5) and first indices (m(3) = 7, 8: zeros before the first index), the words NaN, Inf and -Inf, and groups on one line, and ends the group at /, $END, $end, &END or &end; a value that goes on becomes an array of all its numbers, of integers if all are integers and of floats otherwise.", "quantifier": "for all names of letters and digits that cannot be taken for numbers, all numbers in every notation, all counts and indices of at least 1, all lengths and all sequences of such lines with any indentation", "why_tests_cant": "Tests read one sample file; how lines, counts and indices interact is a statement about all texts.", "anchors": ["openmdao/util/namelist_util.py:349-516"]}
{"id": "C143", "title": "Explicit connections join exactly the variables that the connect calls of all groups name", "statement": "The explicit connections of a problem list a source (with its src_indices) for an absolute param exactly if some group, at any level, has a connect call from a name that stands for the source in that group to a name that stands for the param in that group; a promoted target name stands for all params promoted to it, and a source name stands for the unknown of that name before it stands for params. Setup fails with NameError exactly if some group connects from a name that nothing has or to a name that no param has. The calls for a target are kept in order with their indices, and indices that are a string or contain something else than integers are a TypeError.", "quantifier": "for all trees of groups whose subgroups have no params in common, all name tables and all sequences of connect calls", "why_tests_cant": "The claim is about all trees, at all levels of promotion; tests connect particular pairs of names.", "anchors": ["openmdao/core/group.py:164-203", "openmdao/core/group.py:647-698"]}
{"id": "C144", "title": "A param without a shape takes shape, size and value from its source", "statement": "After setup a connected param that was declared without a shape has the shape, size and value of its source, or, if it is connected with src_indices, as many entries as there are indices and as value the source's entries with these indices; a param with a shape keeps its shape, size and value; the indices are stored in the param's metadata; params passed by object and params that are not connected stay as they are; setup does not fail here when the variables exist and the indices are entries of the source.", "quantifier": "for all variables, values and shapes, all sets of connections and all index arrays", "why_tests_cant": "Tests use one-dimensional sources; the claim is about sources of every shape.", "anchors": ["openmdao/core/problem.py:502-530"]}
{"id": "C145", "title": "A profile counts every call once, under its callers, without the profiler's overhead", "statement": "The data that the profiler wrote for any execution of the profiled functions, by one or several processes, can be processed. The tree has one node for every chain of functions that called each other, its count is the number of calls of that chain and its time is the sum of their times less the overheads of the profiled calls inside them; the children of a node are the chains one function longer; the time of the root is the sum of the times of the functions called from outside. The totals list, for every function that was called, the times and the number of its calls by all callers.", "quantifier": "for all executions (nested calls with any times and overheads) and any number of processes", "why_tests_cant": "Elapsed times differ between runs, so tests check the format of the report, not that the numbers add up; the claim is about all nestings of calls.", "anchors": ["openmdao/util/profile.py:247-308", "openmdao/util/profile.py:310-440"]}
{"id": "C146", "title": "The grand totals of a profile add up the calls of each method", "statement": "The grand total of a method name is the sum of the times of all calls of functions with that method name, of any system and by any caller, and the number of these calls; method names that were not called have none.", "quantifier": "for all executions and any number of processes", "why_tests_cant": "As for the profile itself: tests do not look at the numbers.", "anchors": ["openmdao/util/profile.py:494-507", "openmdao/util/profile.py:310-440"]}
{"id": "C147", "title": "list_connections lists every connection once", "statement": "list_connections writes a table, sorted by source and target, with one row for every connection that has an end in the system and, if asked for, one row for every param without source and every unknown without target; a source is written only in its first row. Names of variables of the listed component are shown from the point on, promoted names are added in parentheses, with a star if source and target are promoted to the same name, and units in brackets. By component, each component has such a table under its title. For a variable it lists the connections that the name refers to, once each, and a name that refers to nothing is a KeyError.", "quantifier": "for all connections, promotions, units, systems and names", "why_tests_cant": "Tests compare the text for one model; rows that get lost or appear twice depend on the names of all variables.", "anchors": ["openmdao/core/system.py:1249-1402"]}
{"id": "C148", "title": "list_params finds unconnected params and params fed from outside", "statement": "list_params returns the params of the system without source and those whose source lies outside the system, and prints each with its name in the system.", "quantifier": "for all systems, params and connections", "why_tests_cant": "Whether a name is cut at the right place depends on all characters of the paths.", "anchors": ["openmdao/core/system.py:1500-1564"]}
{"id": "C149", "title": "list_unit_conv lists the connections with different units", "statement": "list_unit_conv returns, for each connection inside the system whose units are converted or where only one end has units, once, the names of source and target in the system and their units, sorted by names.", "quantifier": "for all systems, metadata and connections", "why_tests_cant": "Tests list one or two connections; that none is lost or doubled is about all systems and names.", "anchors": ["openmdao/core/system.py:1438-1498"]}
{"id": "C150", "title": "check_setup reports exactly the dangling params and the components without unknowns or connections", "statement": "check_setup returns, sorted, the promoted names of the params without source, each once, the components without unknowns, and the components none of whose variables is a source or a target.", "quantifier": "for all models", "why_tests_cant": "The claim is about all models, also such with components whose paths contain one another.", "anchors": ["openmdao/core/problem.py:797-822", "openmdao/core/problem.py:833-844", "openmdao/core/problem.py:853-870"]}
{"id": "C151", "title": "A driver accepts exactly the variables it can set and differentiate", "statement": "Setup of a driver succeeds exactly if all design variables, objectives and constraints are unknowns of the model, no design variable is computed by a component, none is distributed under MPI, and none is passed by object if the driver uses derivatives; their sizes are the number of declared indices or the size of the variable. Otherwise the first offending variable decides between ValueError and RuntimeError.", "quantifier": "for all models and all variables given to a driver", "why_tests_cant": "Tests try single offending variables; the claim covers combinations and the order of the checks.", "anchors": ["openmdao/core/driver.py:65-134"]}
{"id": "C152", "title": "check_setup warns of variables passed by object that derivatives depend on", "statement": "check_setup finds, for a driver that uses derivatives on a model whose root has user derivatives, exactly the unknowns passed by object that are relevant to a variable of interest (to anything if there is none), and its report names them or their connections.", "quantifier": "for all models, relevance sets and connections", "why_tests_cant": "Tests use variables that are not promoted.", "anchors": ["openmdao/core/problem.py:994-1045"]}
{"id": "C153", "title": "What the HDF5 recorder stores can be read back as a case", "statement": "After any sequence of recorded iterations and derivatives, get_case with the key of an iteration returns a case with exactly the recorded params, unknowns and residuals, the flag of success and the derivatives of that iteration; another key is a KeyError; cases are numbered in the order of the run. No value that was stored is ever changed by a later call: recording an iteration again raises ValueError. Values that are not numeric raise NotImplementedError, derivatives of an iteration that was not recorded KeyError.", "quantifier": "for all options, filters, histories and keys", "why_tests_cant": "Tests write one or two iterations into a file and look at the file; the claim is about all histories, and the parts of a case that tests read are not those that are lost.", "anchors": ["openmdao/recorders/hdf5_recorder.py:102-197", "openmdao/recorders/hdf5_reader.py:14-109", "openmdao/recorders/case.py:42-53"]}
{"id": "C154", "title": "A serial design of experiments keeps the responses of every case", "statement": "After a run of a driver with predetermined cases on one process, get_responses gives, for each completed case in order, the response variables with the values they had after that case and its flag of success, and nothing of earlier runs. A case that raises AnalysisError is completed with the flag 0 and the run goes on; any other exception ends the run after the cases before it were recorded. Cases are recorded under the coordinates Driver 0, 1, 2, .... A response can be added only once.", "quantifier": "for all models, lists of cases, response variables and times of asking", "why_tests_cant": "Tests use responses that are scalars, and ask for them directly after the run; what is kept for arrays shows only with several cases.", "anchors": ["openmdao/drivers/predeterminedruns_driver.py:337-374", "openmdao/drivers/predeterminedruns_driver.py:391-495", "openmdao/recorders/inmem_recorder.py:47-101", "openmdao/core/vec_wrapper.py:108-240"]}
{"id": "C155", "title": "The deprecated fd_options still say what derivatives are computed", "statement": "After any sequence of assignments through fd_options, before or after setup, each old option (force_fd, form, step_type, extra_check_partials_form) reads as the last legal value assigned to it, and derivatives are approximated exactly if force_fd is set, by complex step if the form is complex_step, whatever the order of the assignments.", "quantifier": "for all sequences of assignments", "why_tests_cant": "Tests assign one or two options in one order; the claim is about all sequences.", "anchors": ["openmdao/util/options.py:260-322", "openmdao/core/system.py:139-182"]}
{"id": "C156", "title": "A floating point error names the variables that are not finite, once", "statement": "A FloatingPointError raised in a component of a hierarchy of any depth comes out of the run with the component's message, followed by the names of exactly those numeric unknowns, residuals and parameters that have a nonfinite element, as seen by the innermost solver that reports; solvers further out add nothing, and every other exception comes out unchanged.", "quantifier": "for all hierarchies of systems, solvers and states of the vectors", "why_tests_cant": "Tests raise one error in one model with one or two levels; the claim is about all hierarchies and all patterns of nonfinite values.", "anchors": ["openmdao/solvers/solver_base.py:14-66", "openmdao/core/group.py:712-763", "openmdao/solvers/run_once.py:26-54"]}
{"id": "C157", "title": "Printed norms tell which system they are about", "statement": "Each line printed by print_norm is indented by three blanks per enclosing group and per extra level and two per level of preconditioning, and shows the path of the system, so that lines about different systems are never the same.", "quantifier": "for all paths of systems, solvers, iterations and numbers", "why_tests_cant": "Tests compare a few printed lines; the claim is about all systems and all lines.", "anchors": ["openmdao/solvers/solver_base.py:100-166"]}
{"id": "C158", "title": "What is recorded does not depend on the number of processes", "statement": "When a system runs on several processes, a recorder that writes in one place records exactly the variables it selects, each once, with the value held by the process that owns the variable; recorders that write in every process together record every selected variable exactly once.", "quantifier": "for all communicators, distributions of variables over processes, sets of recorders and options", "why_tests_cant": "Parallel tests run on two processes with one recorder; the claim is about all numbers of processes, distributions and combinations of recorders.", "anchors": ["openmdao/recorders/recording_manager.py:48-118", "openmdao/recorders/recording_manager.py:165-232", "openmdao/recorders/base_recorder.py:60-122", "openmdao/core/group.py:1637-1670"]}
{"id": "C159", "title": "The text of a DumpRecorder says what happened, line by line", "statement": "For every recorded iteration and every recorded set of derivatives a DumpRecorder writes a line with the time, one with the iteration coordinate, one that says whether it succeeded (and one with the error message if not), then for each vector that is switched on a title and one line for each selected variable with its value, in the order of the names; with several processes each writes to a file of its own in the directory that was asked for.", "quantifier": "for all models, options, iterations, derivatives, file names and numbers of processes", "why_tests_cant": "Tests compare the text of a few successful iterations; the claim is about all of them, failed ones included.", "anchors": ["openmdao/recorders/dump_recorder.py:45-76", "openmdao/recorders/dump_recorder.py:102-195"]}
{"id": "C160", "title": "check_total_derivatives checks every pair, in both modes, and reports the true distances", "statement": "check_total_derivatives runs the model first if it never ran, and returns an entry for exactly the pairs of a response (objectives and constraints, or every unknown of the model that is not independent when there are none) and an independent variable (the design variables, or every independent variable that drives a param when there are none), leaving out what is passed by object. The errors of an entry are the norms of forward minus finite difference, reverse minus finite difference and forward minus reverse of what calc_gradient returns for the same variables; with relevance reduction only the mode that calc_gradient would choose is compared. Nothing is written when out_stream is None.", "quantifier": "for all models, drivers, connections, modes and values of the derivatives", "why_tests_cant": "Tests check a few models with correct derivatives, where all errors vanish whatever pair is compared with whatever; the claim is about every pair of every model.", "anchors": ["openmdao/core/problem.py:2122-2238", "openmdao/core/problem.py:2488-2580", "openmdao/util/dict_util.py:4-25", "openmdao/core/group.py:593-645"]}
{"id": "C161", "title": "The optimized Latin hypercube is at least as good as the random one it starts from", "statement": "mmphi is the criterion of Morris and Mitchell of the design, that is the q-norm of the inverse distances of all pairs of samples. The evolutionary search of OptimizedLatinHypercubeDriver never returns a design with a larger criterion than its start or than any offspring it looked at. The design the driver uses has no two samples at the same point, and its criterion is at most that of the random design, for each of the values of q.", "quantifier": "for all numbers of samples, variables, norms, populations and generations, and all random choices", "why_tests_cant": "The search is random; tests with a fixed seed see one path, and a criterion cannot be compared with a formula on all designs.", "anchors": ["openmdao/drivers/latinhypercube_driver.py:158-218", "openmdao/drivers/latinhypercube_driver.py:285-325"]}
{"id": "C162", "title": "PetscKSP reports a linear solve truthfully", "statement": "Each right-hand side given to PetscKSP gets the vector that PETSc computes for the matrix of the group (transposed in reverse mode) with the given preconditioner, whatever earlier solves left behind. The solve is reported as FAILED, and raises AnalysisError with err_on_maxiter, exactly when PETSc did not converge within maxiter iterations; the number in the message is the number of iterations; the norms printed are the last and the first residual norm of this solve.", "quantifier": "for all groups, preconditioners, Krylov methods, right-hand sides, options and states left by earlier solves", "why_tests_cant": "The tests need PETSc, use one method on small systems and look at the derivatives only; a method that ends one iteration below the limit or breaks down does not occur in them.", "anchors": ["openmdao/solvers/petsc_ksp.py:92-117", "openmdao/solvers/petsc_ksp.py:234-316", "openmdao/solvers/petsc_ksp.py:318-405"]}
{"id": "C163", "title": "Pass-by-object variables arrive on every process, and the transfer always ends", "statement": "When all processes of a group's communicator transfer pass-by-object variables, every process comes back from the transfer in every interleaving; each target that is local on a process then has the value of its source, from the process itself if it has the source and otherwise from the lowest process that has it; all other entries keep their values and no message is left over.", "quantifier": "for all numbers of processes, distributions of the variables, connections, values, interleavings of the processes and buffering behaviours of MPI", "why_tests_cant": "Needs MPI; a test runs one interleaving with small objects, which MPI buffers.", "anchors": ["openmdao/core/petsc_impl.py:447-487", "openmdao/core/group.py:1637-1670"]}
{"id": "C164", "title": "Every component of a tree gets the processes it asked for", "statement": "When a problem is set up under MPI with a number of processes that it accepts (at least the minimum and at most the maximum that its tree asks for), the set-up succeeds on every process; every component has one communicator, on which all of its processes agree, with at least as many processes as the component asked for, through any nesting of groups, parallel groups and parallel finite difference groups, and every component runs somewhere.", "quantifier": "every tree of systems, every requirement of its components, every number of processes and every process", "why_tests_cant": "The outcome depends on the shape of the whole tree, the requirements and the number of processes; tests need an MPI run for each combination and use a few small trees, and most processes of a wrong set-up look right.", "anchors": ["openmdao/core/system.py:429-457", "openmdao/core/group.py:381-399", "openmdao/core/group.py:1342-1363", "openmdao/core/parallel_group.py:93-265", "openmdao/core/parallel_fd_group.py:66-129", "openmdao/core/problem.py:2320-2343"]}
{"id": "C165", "title": "Variables are local exactly where their component runs", "statement": "After the set-up under MPI, the variables of a component are part of the vectors of a process exactly when the component runs on that process; on all other processes they are marked as remote.", "quantifier": "every tree of systems, every number of processes and every process", "why_tests_cant": "A process that holds variables of a component it does not run shows no error: it returns the initial values. That needs a number of processes that a part of the tree cannot use.", "anchors": ["openmdao/core/component.py:424-452", "openmdao/core/parallel_group.py:122-265", "openmdao/core/group.py:381-399"]}
{"id": "C166", "title": "The Jacobian of a component depends on the point only", "statement": "After a component is linearized at a point, its Jacobian is the one that its linearize method (or the finite differences, if those are chosen) gives for that point: the same as for a new component, whatever points it was linearized at before. A linearize method that fills the zero matrices of alloc_jacobian gets zeros where it sets nothing, with one matrix of the right shape for each pair of a local unknown and a local param or state; numbers and one-dimensional arrays are turned into matrices.", "quantifier": "every component, every linearize method that returns its own dictionary or fills the allocated one, every sequence of points", "why_tests_cant": "A Jacobian that keeps entries of an earlier point is wrong only for a sequence of points and a method whose pattern of non-zeros changes; tests linearize at one point, or with methods that set every entry.", "anchors": ["openmdao/core/system.py:896-959", "openmdao/core/component.py:951-992", "openmdao/core/component.py:80"]}
{"id": "C167", "title": "Zero residuals mean that the model is solved", "statement": "When the nonlinear solver of a model returns, the residual vector that it has tested holds, for every component of the tree, the residual at the unknowns it returns (what the component computes from the present outputs of its sources, minus its output), also for the components that the evaluation of residuals leaves out to save time. So residuals of zero mean that every component agrees with its inputs.", "quantifier": "every tree of groups with any solvers and any components, every set of connections, every sequence of runs", "why_tests_cant": "Which components are left out depends on the order and the connections of the whole tree, and whether that is right on what the solvers of all groups did before; a component left out wrongly shows a residual of zero, so a test that looks at residuals or at convergence passes.", "anchors": ["openmdao/core/group.py:741-820", "openmdao/core/component.py:535-611", "openmdao/core/problem.py:401-437", "openmdao/core/problem.py:626-631", "openmdao/solvers/nl_gauss_seidel.py:96-187", "openmdao/solvers/newton.py:156-245"]}
{"id": "C168", "title": "The names of variables do not influence the linear Gauss-Seidel solver", "statement": "The derivatives that LinearGaussSeidel returns, and whether it reports convergence, do not depend on how variables are named or promoted: the sweeps leave the identity term of exactly the outputs of the present child out, and the norm that is compared with atol and rtol is the norm of the residual of the linear system, in forward and reverse mode, with or without an IndepVarComp in the group.", "quantifier": "every group with any children, connections and partials, every assignment of names and promotions, every right-hand side, any number of sweeps", "why_tests_cant": "The code compares names of different levels of the tree; with all variables promoted, or with a single sweep, every test passes, and a wrong result depends on a coincidence of names or of values.", "anchors": ["openmdao/core/group.py:339-365", "openmdao/solvers/ln_gauss_seidel.py:73-270", "openmdao/core/system.py:799-895", "openmdao/components/indep_var_comp.py:64-108"]}
{"id": "C169", "title": "The linear solve of a Newton solver in a group only depends on the group", "statement": "The step that a Newton solver of a group below the root computes depends on the partial derivatives and residuals of that group only: derivative inputs that are connected to sources outside the group have no effect on the linear operator, whatever earlier linear solves have left in them, and all inputs connected to sources in the group have their effect.", "quantifier": "every group, every set of components, connections and pathnames, every content of the derivative vectors", "why_tests_cant": "The left-over values come from linear solves of groups further up in earlier iterations; with one Newton solver, or zeros left behind, nothing is seen, and otherwise the step is wrong by an amount that looks like slow convergence.", "anchors": ["openmdao/solvers/newton.py:74-100", "openmdao/solvers/newton.py:185-191", "openmdao/core/system.py:826-894", "openmdao/core/system.py:961-1021", "openmdao/core/group.py:869-881", "openmdao/core/vec_wrapper.py:1234-1247"]}
{"id": "C170", "title": "The subsystems of a ParallelGroup run in any order, and independent ones as in a Group", "statement": "A run of a ParallelGroup, and an evaluation of its residuals, give the same result in whatever order its subsystems run. Each subsystem is run with the values that the outputs of the others had before the run. If no subsystem is connected to another one, the result is that of a Group with the same subsystems, and the residuals after a solver on a ParallelGroup are those of the outputs it returns.", "quantifier": "every tree of groups and parallel groups with any solvers, every set of connections and components, every state, every order of the subsystems", "why_tests_cant": "Under MPI the order of the subsystems depends on the processes; without MPI they run one after the other but still with the old outputs of each other, which only matters for connected subsystems. A test sees one order and one tree; the values it compares come from a problem that was run several times.", "anchors": ["openmdao/core/parallel_group.py:50-91", "openmdao/core/group.py:741-820", "openmdao/core/group.py:1600-1635", "openmdao/core/component.py:535-611", "openmdao/core/problem.py:401-437", "openmdao/core/problem.py:626-631", "openmdao/core/vec_wrapper.py:981-1011"]}
{"id": "C171", "title": "A response surface is the quadratic function that fits its training data best", "statement": "After ResponseSurface.train the predictions at the training points have a sum of squared errors that no quadratic function of the inputs goes below. If the responses are those of a quadratic function, it is reproduced at all training points, and at every point if the training points determine it. Earlier trainings have no effect.", "quantifier": "every number of inputs, every set of training points and responses, every quadratic function, every point", "why_tests_cant": "The regressors are written into slices of a matrix, in an order that predict and linearize repeat on their own. A wrong column or offset still gives a function that fits its own training data, and tests compare values at a few points of one function of one or two inputs.", "anchors": ["openmdao/surrogate_models/response_surface.py:19-55", "openmdao/surrogate_models/response_surface.py:57-89", "openmdao/surrogate_models/surrogate_model.py:11-20"]}
{"id": "C172", "title": "Every output of a MetaModel is predicted by its own surrogate, trained on the training data", "statement": "setup() gives every output without a surrogate of its own a copy of the default surrogate, never trained before. The first run after setup (or after train is set to True) trains the surrogate of each output once on the training data of that output; later runs predict with it. A training that fails is repeated by the next run. When the training data are changed, the component retrains.", "quantifier": "every set of outputs, every class of surrogates, every history of setups, runs and settings of train, all training data and inputs", "why_tests_cant": "Surrogates are objects that outputs may share and that keep what they learned; whether a value comes from the right object in the right state depends on the whole history. Tests train one component once and look at one prediction.", "anchors": ["openmdao/components/meta_model.py:106-140", "openmdao/components/meta_model.py:142-163", "openmdao/components/meta_model.py:188-216", "openmdao/components/meta_model.py:283-367"]}
{"id": "C173", "title": "The iterators over subsystems yield every system once, in execution order", "statement": "subsystems(local, recurse, typ, include_self) of a Group yields the systems of the type directly in the group, and with recurse all those below it, each once: a group before what is in it, and the content of an earlier subsystem before that of a later one. With local only systems are yielded that are local together with all groups above them. subgroups and components share the systems out between them. No pathname is yielded twice.", "quantifier": "every tree of systems, every type test and all values of the three flags", "why_tests_cant": "The iterator passes its arguments on to itself by position and leaves one out; a group that is not of the type must still be searched. Tests look at the names in one small tree, mostly with one combination of flags.", "anchors": ["openmdao/core/group.py:205-239", "openmdao/core/group.py:240-248", "openmdao/core/group.py:250-258"]}
{"id": "C174", "title": "Every component runs in its own directory, and the process comes back to where it was", "statement": "While run_once or _sys_linearize calls the methods of a component, the working directory is that of the component: the directories of the systems on the way down to it, one below the other, starting from the directory of the first setup; or, if no system on the way has one, the directory in which the run was started. After the run the working directory is the one before it, also when a component raised an exception or a directory does not exist. The same after calc_gradient.", "quantifier": "every tree of systems, every choice of directories, solvers, missing directories and exceptions", "why_tests_cant": "The directory is entered by a context object that is shared by all uses of a system and keeps where it came from in one attribute; whether it is entered twice depends on the solvers of the model. Tests give one component a directory and look for one file.", "anchors": ["openmdao/core/system.py:462-486", "openmdao/util/file_util.py:189-203", "openmdao/core/group.py:741-820", "openmdao/core/problem.py:1164-1175", "openmdao/core/problem.py:1297-1311", "openmdao/core/system.py:917-951", "openmdao/solvers/newton.py:180-191"]}
{"id": "C175", "title": "An IndepVarComp declares exactly the variables it is given", "statement": "IndepVarComp(name, val, **kw) declares one output with this name, value and keywords. IndepVarComp(iterable) declares one output for each element (name, value) or (name, value, keywords), in this order and with these values and keywords. It is accepted exactly if all elements have this form, all names are valid and differ, and the arguments are acceptable for an output. A malformed argument raises a ValueError, and no keyword is dropped.", "quantifier": "every list of elements, values and keywords", "why_tests_cant": "The loop keeps the variables of the element before; whether a malformed element is noticed depends on its truth value. Tests try a few malformed arguments that count as true.", "anchors": ["openmdao/components/indep_var_comp.py:13-47", "openmdao/core/component.py:108-176"]}
{"id": "C176", "title": "view_connections lists every parameter once, under its source, with the value it receives", "statement": "The table of view_connections has a row for each source, with exactly the parameters connected to it, and a row with the parameters that are not connected; every parameter of the system is listed once. The value shown for a parameter is what it receives from its source, at its indices and in its own units, or its own value if it is not connected. Sources without targets are listed as such. It works for the whole model and for any system in it.", "quantifier": "every system, every set of connections with any indices and unit conversions, all values", "why_tests_cant": "The table is computed a second time from the connections, not read from the vectors of the parameters; shape and indices of a source decide whether both agree. The tests only look whether a file is written.", "anchors": ["openmdao/util/viewconns.py:22-126"]}
{"id": "C177", "title": "build_directory makes what the dict asks for and leaves everything else alone", "statement": "After build_directory(dct, force, topdir) without exception every file of the nested dict is there below topdir; with force, or if nothing was there before, it has the content the dict gives it. Without force nothing that was there is changed, also if there is an exception half way. The only paths that change are files of the dict and new directories on the way to a file or directory of the dict. All keys are relative, or there is a RuntimeError.", "quantifier": "every nested dict, every order in which it yields its items, every file system", "why_tests_cant": "The function changes into directories and calls itself with a default argument; a mistake there writes somewhere else in the file system. Tests build one structure in an empty directory.", "anchors": ["openmdao/util/file_util.py:13-57"]}
{"id": "C178", "title": "Setup refuses a model in which derivatives are solved for in parallel against the mode of a group", "statement": "If variables of interest are grouped for parallel derivatives, setup reports every group of the model, at any depth, whose LinearGaussSeidel is set to the other mode, and no other group. So after a setup without errors a gradient that solves for several variables together never does so with a group set to the other mode. A variable of interest that is not an unknown is a NameError.", "quantifier": "every tree of groups, all solvers, modes and options, all groups of design variables and responses", "why_tests_cant": "Whether variables are solved for together is decided in another place than the check; tests look at one model with one set of options, and the two conditions have to agree for all of them.", "anchors": ["openmdao/core/problem.py:576-604", "openmdao/core/problem.py:2251-2283", "openmdao/core/problem.py:1801-1812", "openmdao/core/relevance.py:45-54"]}
{"id": "C179", "title": "A uniform study runs the number of samples asked for, inside the bounds, and a seed fixes them", "statement": "UniformDriver runs exactly num_samples cases. Each sets all design variables, in their order, with one value for each entry, between the lower and the upper bound of that entry. With a seed the cases depend only on the seed, the design variables and num_samples: not on random numbers drawn before, and not on the model; a study with more samples begins with the cases of the shorter one.", "quantifier": "every set of design variables with bounds given as numbers or arrays, every number of samples, every generator of random numbers, every model", "why_tests_cant": "The samples are drawn one at a time between the runs of the model, from a generator that the whole process shares; tests look at the range of one small study.", "anchors": ["openmdao/drivers/uniform_driver.py:36-59", "openmdao/drivers/predeterminedruns_driver.py:474-496"]}
{"id": "C180", "title": "print_all_convergence reaches every solver down to the depth asked for, and no other", "statement": "After Problem.print_all_convergence(level, depth) every linear and nonlinear solver of the groups down to that depth has iprint = level, and so have all solvers inside them (preconditioners, line searches, linear solvers of a Newton, at any depth). No solver of a deeper group is changed. Before setup there is a RuntimeError, for a level that is not allowed a ValueError.", "quantifier": "every tree of groups, every nesting of solvers, all levels and depths", "why_tests_cant": "Solvers contain solvers, and each class passes the call on by itself; tests look at one or two nestings.", "anchors": ["openmdao/core/problem.py:2429-2459", "openmdao/solvers/newton.py:270-284", "openmdao/solvers/newton.py:101-115", "openmdao/solvers/scipy_gmres.py:81-93", "openmdao/solvers/solver_base.py:168-178"]}
{"id": "C181", "title": "check_setup of an external code finds what would keep it from starting", "statement": "ExternalCode.check_setup reports an empty command, a program that cannot be found and the input files that do not exist, each exactly if it is so. If it reports nothing, solve_nonlinear in the same state starts the program; if it reports something, solve_nonlinear raises an exception before the program is started.", "quantifier": "every command (a string or a list of strings), every list of input files, every state of the file system", "why_tests_cant": "The check and the run look for the program in two places of the code, and tests only use commands that are lists.", "anchors": ["openmdao/components/external_code.py:104-129", "openmdao/components/external_code.py:131-150", "openmdao/components/external_code.py:185-199"]}
{"id": "C182", "title": "A system in a sub-problem has its directory below that of the sub-problem", "statement": "After Problem.setup the absolute directory of every component (in which it runs if it has a directory of its own, and in which its file variables are) is made of the directories of all systems above it, one below the other, through sub-problems too, starting from the directory in which setup was called first. Calling setup again changes nothing.", "quantifier": "every tree of groups and sub-problems nested in any way, all directories, any number of setups", "why_tests_cant": "The directory is handed down in two ways, in groups and from a sub-problem to its problem, and is wrong or right depending on how often setup was called; tests call it once, without directories in sub-problems.", "anchors": ["openmdao/components/subproblem.py:130-165", "openmdao/core/problem.py:2316-2343", "openmdao/core/system.py:471-486", "openmdao/core/component.py:455"]}
{"id": "C183", "title": "Co-kriging accepts correlation parameters only with bounds that fit", "statement": "Training a multi-fidelity co-kriging surrogate accepts the start values and bounds of the correlation parameters exactly if at each level the start values (and theta, where given) are positive, there are as many lower and upper bounds as start values, and 0 < thetaL <= thetaU. Values that are not given are 0.5, 1e-5 and 50 for each input. Otherwise there is a ValueError.", "quantifier": "every number of levels and inputs, every choice of arguments given or not, all values", "why_tests_cant": "Each of four arguments may be given or not at each level; tests try a few wrong values, not the combinations.", "anchors": ["openmdao/surrogate_models/multifi_cokriging.py:761-817", "openmdao/surrogate_models/multifi_cokriging.py:529-594"]}
{"id": "C184", "title": "After setup the directories that a model needs are there", "statement": "If Problem.setup succeeds, the directory of every system with create_dirs and the directory of every file variable is there. Setup makes only these, where create_dirs is set, and directories above them, and never changes or removes anything. For a component without create_dirs, setup raises RuntimeError if and only if the directory of a file variable is missing.", "quantifier": "every tree of systems, all directories and file names, every file system", "why_tests_cant": "Directories are made while the tree is walked, and one that is made may contain a later one; tests look at one component.", "anchors": ["openmdao/core/system.py:471-486", "openmdao/core/component.py:437-466", "openmdao/core/group.py:393-399"]}
{"id": "C185", "title": "Cleanup closes the recorders of a problem", "statement": "After Problem.cleanup every recorder that was added to the driver or to any solver in the model, at any depth and through sub-problems, is closed. No other recorder is closed, and calling cleanup again changes nothing.", "quantifier": "every tree of groups, solvers and sub-problems, every set of recorders, shared or not", "why_tests_cant": "Solvers may sit in groups, in sub-problems and in other solvers; tests close one recorder on one object.", "anchors": ["openmdao/core/problem.py:682-685", "openmdao/core/driver.py:182-184", "openmdao/core/group.py:113-118", "openmdao/components/subproblem.py:67-72", "openmdao/solvers/solver_base.py:96-98"]}
{"id": "C186", "title": "The total time of a profile is the time during which profiling was on", "statement": "Whatever calls of profile.start and profile.stop a program makes, in any order and number, the total time written at exit is the time during which profiling was on: the sum of the times from each start to the next call or the exit. With a clock that does not go back it is not negative and at most the time from the first call to the exit.", "quantifier": "every sequence of calls and all times", "why_tests_cant": "Repeated starts and stops, and an exit while profiling is on, are sequences without bound; tests make one start.", "anchors": ["openmdao/util/profile.py:182-200", "openmdao/util/profile.py:227-246"]}
{"id": "C187", "title": "The profiler wraps each listed method of each object of a problem once", "statement": "profile.setup wraps every listed method of the problem, its driver, all systems, their solvers and the recording managers that have recorders exactly once, so that a call is recorded once. Nothing else is wrapped.", "quantifier": "every tree of systems and solvers, every list of methods", "why_tests_cant": "An object may be reached in more than one way through the model; tests profile a model in which no object is shared.", "anchors": ["openmdao/util/profile.py:49-75", "openmdao/util/profile.py:168-180"]}
{"id": "C188", "title": "The groups of a parallel design study get as many processes as the model needs", "statement": "If Problem.setup under MPI accepts the number of processes for a design study with num_par_doe groups, every group that runs cases has at least as many processes as the root needs and at most as many as it can use, with and without load balancing. The number of processes is refused with RuntimeError if and only if it is less than the groups need together or more than they can use together.", "quantifier": "every number of groups and processes, all requirements of the root", "why_tests_cant": "Depends on remainders of divisions and on the process of the master; tests under MPI use one or two fixed numbers of processes.", "anchors": ["openmdao/drivers/predeterminedruns_driver.py:112-154", "openmdao/drivers/predeterminedruns_driver.py:197-212", "openmdao/core/problem.py:2320-2343"]}
