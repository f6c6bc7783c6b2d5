# Formal model of OpenMDAO 1.x — design

Source under study: `/repo` (python, read as text, never run). Prover: Lean 4.33.0 with selected
Mathlib modules. Everything is under `lean/Verif/`.

## Layout

For every area `X` there are up to four files:

* `Verif/Model/X.lean`  – the model: one Lean definition per python function, mirrored branch by branch,
  exceptions as values (`Except`), each citing file and lines. No theorems.
* `Verif/Spec/X.lean`   – specification vocabulary used in theorem statements, independent of the model's
  helpers (small specifications stand at the head of the property file instead).
* `Verif/Lemmas/X.lean` – helper lemmas.
* `Verif/Props/X.lean`  – the property theorems (named `Cnn_…`) and beside them a non-vacuity `example`.

Naming: `Cnn_…_partial` proves a part of property `Cnn`, with the missing part said in its comment;
`Cnn_…_refuted` proves that the code violates the property, with a concrete witness; `finding_…` is a
surprising behaviour outside any property claim. `MANIFEST.json` maps property ids to theorem names;
`seeded/LOG.jsonl` records the experiments with wrong programs.

## Trusted base

* Lean's kernel. Axioms: `#print axioms` was run for every theorem named in `MANIFEST.json`; each depends
  on a subset of `propext`, `Classical.choice`, `Quot.sound`. No axioms of our own, no `sorry`, no
  `native_decide`, no `bv_decide`.
* The reading of the python code: the tie between model and code is the citation at each definition.
  The code was never executed.
* Modelling conventions (these hold everywhere unless a definition says otherwise)
  * floating-point numbers are modelled by elements of an arbitrary (ordered) field or by `ℚ`; rounding,
    overflow and signed zero are not modelled, except where a definition carries a rounding function
    (`Component`, `FiniteDiff`). NaN and infinities are modelled explicitly (`Model/Flt`) where the code
    compares norms (nonlinear solver loops, line search, step limits).
  * numpy arrays are flat lists (C order); shapes are kept only where the code branches on them.
  * python dicts are association lists in insertion order (OrderedDict) unless order is irrelevant.
  * python exceptions are values; the state after an exception is returned too when a property speaks
    about it.
  * while loops carry fuel; running out of fuel is an explicit outcome, and termination is proved as
    "with enough fuel this outcome does not occur" (or refuted for all fuels).
  * MPI / multiprocessing: messages and scheduling are modelled as a nondeterministic transition system;
    the transport itself (delivery, no loss, per-pair order) is trusted. Collective operations take the
    contributions of all ranks in rank order.
  * `linalg.svd` is assumed to return a singular value decomposition (`IsSvd` in `Spec/Kriging.lean`) where a theorem says so,
    search trees to return nearest neighbours (`IsNearest`), optimizers are arbitrary functions of their callback.
  * user code (components, solvers plugged in by the user, `fnmatch`, surrogates) is an arbitrary function.

## What is modelled

| model file | code |
|---|---|
| `ApplyLinear.lean` (25 definitions) | `system.py`, `vec_wrapper.py` |
| `ArrayUtil.lean` (6 definitions) | `array_util.py` |
| `Assemble.lean` (18 definitions) | `group.py`, `ln_direct.py`, `solver_base.py`, `system.py` |
| `AutoOrder.lean` (15 definitions) | `graph.py`, `group.py` |
| `Brent.lean` (13 definitions) | `brent.py` |
| `BuildDir.lean` (10 definitions) | `file_util.py` |
| `ByObj.lean` (10 definitions) | `petsc_impl.py` |
| `CheckPartials.lean` (33 definitions) | `component.py`, `problem.py`, `system.py` |
| `CheckSolvers.lean` (20 definitions) | `problem.py` |
| `CheckTotals.lean` (23 definitions) | `dict_util.py`, `problem.py` |
| `Checks.lean` (20 definitions) | `_checks.py`, `fileref.py`, `problem.py` |
| `CkParams.lean` (8 definitions) | `multifi_cokriging.py` |
| `Cleanup.lean` (13 definitions) | `driver.py`, `group.py`, `newton.py`, `problem.py`, `recording_manager.py`, `scipy_gmres.py`, `solver_base.py`, `subproblem.py`, `system.py` |
| `CoKriging.lean` (45 definitions) | `multifi_cokriging.py` |
| `Comms.lean` (20 definitions) | `component.py`, `driver.py`, `group.py`, `parallel_fd_group.py`, `parallel_group.py`, `problem.py`, `system.py` |
| `ComplexStep.lean` (30 definitions) | `component.py`, `system.py`, `vec_wrapper.py`, `vec_wrapper_complex_step.py` |
| `Component.lean` (6 definitions) | `component.py` |
| `Concurrent.lean` (14 definitions) | `concurrent.py` |
| `Connections.lean` (22 definitions) | `problem.py` |
| `Constraint.lean` (5 definitions) | `constraint.py` |
| `DataTransfer.lean` (13 definitions) | `data_transfer.py` |
| `Declare.lean` (24 definitions) | `component.py`, `type_util.py` |
| `DirectSolver.lean` (10 definitions) | `group.py`, `ln_direct.py`, `system.py` |
| `Doe.lean` (27 definitions) | `fullfactorial_driver.py`, `latinhypercube_driver.py`, `predeterminedruns_driver.py` |
| `DoeProcs.lean` (4 definitions) | `predeterminedruns_driver.py`, `problem.py` |
| `Driver.lean` (26 definitions) | `driver.py` |
| `DriverSetup.lean` (11 definitions) | `driver.py`, `problem.py` |
| `Dump.lean` (12 definitions) | `dump_recorder.py` |
| `ExecComp.lean` (20 definitions) | `exec_comp.py` |
| `ExecLin.lean` (27 definitions) | `exec_comp.py`, `vec_wrapper.py` |
| `Explicit.lean` (19 definitions) | `group.py`, `problem.py` |
| `ExtCheck.lean` (8 definitions) | `external_code.py` |
| `External.lean` (32 definitions) | `external_code.py`, `file_util.py`, `fileref.py`, `shell_proc.py` |
| `FdGroup.lean` (18 definitions) | `component.py`, `group.py`, `ln_gauss_seidel.py`, `system.py` |
| `FdOptions.lean` (4 definitions) | `options.py` |
| `FileParse.lean` (40 definitions) | `file_wrap.py` |
| `FileWrap.lean` (19 definitions) | `file_wrap.py` |
| `FiniteDiff.lean` (34 definitions) | `parallel_fd_group.py`, `system.py` |
| `Flt.lean` (13 definitions) | `newton.py`, `nl_gauss_seidel.py` |
| `Gather.lean` (10 definitions) | `group.py`, `system.py` |
| `Gmres.lean` (11 definitions) | `group.py`, `ln_gauss_seidel.py`, `scipy_gmres.py`, `solver_base.py` |
| `GradFd.lean` (24 definitions) | `problem.py` |
| `Graph.lean` (4 definitions) | `graph.py`, `relevance.py` |
| `GroupXfer.lean` (33 definitions) | `group.py`, `vec_wrapper.py` |
| `GsOutputs.lean` (13 definitions) | `component.py`, `group.py`, `indep_var_comp.py`, `ln_gauss_seidel.py`, `system.py`, `vec_wrapper.py` |
| `Hdf5.lean` (24 definitions) | `_reader.py`, `_recorder.py`, `case.py` |
| `Ivc.lean` (5 definitions) | `indep_var_comp.py` |
| `Kriging.lean` (24 definitions) | `kriging.py`, `surrogate_model.py` |
| `LinearGS.lean` (20 definitions) | `component.py`, `group.py`, `ln_gauss_seidel.py`, `system.py` |
| `LinearSystem.lean` (9 definitions) | `linear_system.py` |
| `Linearize.lean` (22 definitions) | `component.py`, `system.py` |
| `MakeDirs.lean` (12 definitions) | `component.py`, `fileref.py`, `group.py`, `system.py` |
| `MetaLife.lean` (14 definitions) | `meta_model.py` |
| `MetaModel.lean` (29 definitions) | `meta_model.py` |
| `Mode.lean` (5 definitions) | `problem.py` |
| `MorrisMitchell.lean` (4 definitions) | `latinhypercube_driver.py` |
| `MpiDoe.lean` (17 definitions) | `predeterminedruns_driver.py` |
| `MultiFi.lean` (16 definitions) | `multifi_meta_model.py` |
| `MultiProc.lean` (6 definitions) | `predeterminedruns_driver.py` |
| `NLGS.lean` (15 definitions) | `nl_gauss_seidel.py` |
| `Namelist.lean` (87 definitions) | `file_wrap.py`, `namelist_util.py` |
| `NearNbr.lean` (41 definitions) | `linear_interpolator.py`, `nn_base.py`, `rbf_interpolator.py`, `weighted_interpolator.py` |
| `Newton.lean` (28 definitions) | `backtracking.py`, `newton.py`, `vec_wrapper.py` |
| `NewtonRel.lean` (4 definitions) | `group.py`, `newton.py`, `solver_base.py`, `system.py`, `vec_wrapper.py` |
| `Numpy.lean` (9 definitions) | `data_transfer.py` |
| `Options.lean` (32 definitions) | `newton.py`, `options.py`, `problem.py`, `system.py` |
| `ParCheck.lean` (12 definitions) | `group.py`, `ln_direct.py`, `ln_gauss_seidel.py`, `petsc_ksp.py`, `problem.py`, `relevance.py`, `scipy_gmres.py` |
| `ParDeriv.lean` (33 definitions) | `group.py`, `problem.py`, `relevance.py`, `vec_wrapper.py` |
| `ParDoe.lean` (19 definitions) | `mpi_wrap.py`, `predeterminedruns_driver.py`, `recording_manager.py` |
| `ParGroup.lean` (26 definitions) | `parallel_group.py` |
| `ParRun.lean` (19 definitions) | `component.py`, `group.py`, `parallel_group.py`, `vec_wrapper.py` |
| `Paths.lean` (15 definitions) | `group.py`, `string_util.py`, `system.py` |
| `PetscKsp.lean` (10 definitions) | `petsc_ksp.py` |
| `PrintConv.lean` (9 definitions) | `backtracking.py`, `newton.py`, `petsc_ksp.py`, `problem.py`, `scipy_gmres.py`, `solver_base.py` |
| `ProblemVars.lean` (18 definitions) | `problem.py`, `system.py`, `vec_wrapper.py` |
| `ProfClock.lean` (5 definitions) | `profile.py` |
| `ProfWrap.lean` (8 definitions) | `group.py`, `profile.py` |
| `Profile.lean` (24 definitions) | `profile.py` |
| `Promotes.lean` (15 definitions) | `component.py`, `group.py`, `system.py` |
| `PyOpt.lean` (35 definitions) | `problem.py`, `pyoptsparse_driver.py` |
| `RecMpi.lean` (13 definitions) | `base_recorder.py`, `dump_recorder.py`, `group.py`, `inmem_recorder.py`, `recording_manager.py` |
| `Recorder.lean` (47 definitions) | `backtracking.py`, `base_recorder.py`, `brent.py`, `case.py`, `csv_recorder.py`, `driver.py`, `group.py`, `inmem_recorder.py`, `newton.py`, `nl_gauss_seidel.py`, `predeterminedruns_driver.py`, `record_util.py`, `recording_manager.py`, `run_once.py`, `scipy_optimizer.py`, `sqlite_reader.py`, `sqlite_recorder.py`, `system.py` |
| `Relevance.lean` (21 definitions) | `problem.py`, `relevance.py` |
| `Reports.lean` (36 definitions) | `problem.py`, `system.py` |
| `RespTrain.lean` (4 definitions) | `response_surface.py`, `surrogate_model.py` |
| `ResponseSurface.lean` (7 definitions) | `response_surface.py`, `surrogate_model.py` |
| `RunApply.lean` (21 definitions) | `component.py`, `group.py`, `newton.py`, `nl_gauss_seidel.py`, `problem.py`, `run_once.py` |
| `RunDir.lean` (24 definitions) | `component.py`, `driver.py`, `file_util.py`, `group.py`, `newton.py`, `nl_gauss_seidel.py`, `problem.py`, `run_once.py`, `system.py` |
| `Scipy.lean` (17 definitions) | `scipy_optimizer.py` |
| `SerialDoe.lean` (17 definitions) | `inmem_recorder.py`, `predeterminedruns_driver.py`, `recording_manager.py`, `vec_wrapper.py` |
| `SharedVec.lean` (20 definitions) | `driver.py`, `group.py`, `relevance.py`, `system.py`, `vec_wrapper.py` |
| `SolverBase.lean` (20 definitions) | `group.py`, `newton.py`, `nl_gauss_seidel.py`, `run_once.py`, `solver_base.py`, `vec_wrapper.py` |
| `SubDir.lean` (5 definitions) | `group.py`, `problem.py`, `subproblem.py`, `system.py` |
| `SubProblem.lean` (15 definitions) | `dict_util.py`, `subproblem.py` |
| `Subsys.lean` (10 definitions) | `group.py`, `system.py` |
| `Totals.lean` (22 definitions) | `problem.py`, `vec_wrapper.py` |
| `UniDoe.lean` (10 definitions) | `predeterminedruns_driver.py`, `uniform_driver.py` |
| `UnitStr.lean` (51 definitions) | `units.py` |
| `Units.lean` (15 definitions) | `problem.py`, `units.py`, `vec_wrapper.py` |
| `Vec.lean` (20 definitions) | `vec_wrapper.py` |
| `ViewConn.lean` (9 definitions) | `viewconns.py` |
| `VoiSets.lean` (23 definitions) | `driver.py`, `problem.py` |

## Not modelled

* Libraries: numpy, scipy, networkx, pyparsing, sqlite, h5py, PETSc, mpi4py and pyoptsparse internals, the optimizers, and the regular-expression
  engine (except the expressions that a model file treats by hand, such as those in `FileWrap` and `Declare`). Where a model needs them they are
  arbitrary functions, or functions with the assumption named in the theorem.
* The operating system: contents and permissions of files, links, clocks, and processes other than by the transition systems named above. `MakeDirs`, `SubDir`,
  `RunDir`, `BuildDir` and `ExtCheck` model the parts of it that they name.
* Printing and rendering: the text of `check_setup` and of most reports, `dump` of components, groups and vectors, `list_states`, `generate_docstring`, the html
  viewers, `_json_system_tree`. Where a model gives the text, as for the dump recorder (`Dump`) or the tables in `Reports`, its comment says so.
* Constructors that only declare options; `import_library` and the opening of the file in `update_library` of the units (`_update_library` is in `UnitStr`);
  trigonometric functions of quantities; `ShellProc` other than `wait` (`External`); `_check_mpi`, `_check_gmres_under_mpi`, `_check_ubcs`,
  `_check_unmarked_pbos` and `_check_driver_issues` in `check_setup`; metadata written by recorders, unless a model file says so; pickling of vectors; redirection of streams under MPI.
* Within a modelled function, what its comment says is left out.
* The `docs`, `devtools`, `examples` and `test` trees.

## Properties, models and proofs

Status and remarks are those of `MANIFEST.json`.

* **C01** Even distribution of work is a partition — *proved*. `Props/ArrayUtil`. Proof: closed form of sizes and offsets, sum and prefix lemmas. All numbers of divisions and items; error branch for 0 divisions.
  Theorems: `C01_evenly_distrib_partition`, `C01_evenly_distrib_zero`.
* **C02** Index arrays converted to slices select the same entries — *proved*. `Props/ArrayUtil`. Proof: induction on the index list. Numpy indexing semantics are the specification (Idx.positions).
  Theorems: `C02_to_slice_exact`, `C02_to_slice_only_increasing`.
* **C03** Forward data transfer delivers every connected value — *proved*. `Props/DataTransfer`. Proof: scatter semantics invariant under merging; permutation invariance from disjoint targets. FileRef copying of pass-by-object values is not modelled.
  Theorems: `C03_forward_transfer_delivers`, `C03_byobj_transfer`, `C03_empty_connection_rejected`, `C03_construction_fails_iff`.
* **C04** Reverse data transfer is the transpose of forward transfer — *proved*. `Props/DataTransfer`. Proof: every step adds exactly the connected contributions; adjoint by exchanging sums. 
  Theorems: `C04_reverse_transfer_accumulates`, `C04_reverse_is_adjoint`.
* **C05** Variables tile the flat vector — *proved*. `Props/Vec`. Proof: induction over variables. Local process only: remote variables own no storage. Shapes and complex-step storage are not modelled.
  Theorems: `C05_variables_tile_vector`.
* **C06** Setting one variable reads back and touches nothing else — *proved*. `Props/Vec`. Proof: refinement to a finite map over operation sequences. Includes unit-less reads; shapes (ndarray reshape) and complex-step mode are not modelled.
  Theorems: `C06_read_returns_last_assignment`, `C06_assignment_effect`.
* **C07** Subsystem views alias the parent's storage — *proved*. `Props/VecView`. Proof: renumbering lemma, write-through. Views of views are covered because a view is again a good vector.
  Theorems: `C07_view_is_good`, `C07_view_aliases_parent`, `C07_view_of_contiguous_run_exists`.
* **C08** Parameters are read in their own units — *proved*. `Props/Units`. Proof: field arithmetic against base-unit quantities. Numbers are a field; unit strings are resolved by a parameter. Stored (non pass-by-object) parameters.
  Theorems: `C08_param_reads_in_own_units`, `C08_no_conversion`, `C08_incompatible_reported`, `C08_derivatives_only_scale`, `C08_scale_is_derivative`.
* **C09** Unit conversion is an invertible, transitive change of coordinates — *proved*. `Props/Units`. Proof: field arithmetic. Numbers are a field (no rounding); factors non-zero.
  Theorems: `C09_convert_preserves_quantity`, `C09_convert_self`, `C09_convert_round_trip`, `C09_convert_transitive`, `C09_sum_preserves_quantity`.
* **C10** Unit algebra respects dimensions — *partial*. `Props/Units`. Proof: componentwise on power vectors. Partial: number / offset-unit is not refused by the code (C10_rdiv_offset_refuted). Fractional powers are not modelled.
  Theorems: `C10_mul`, `C10_div`, `C10_pow`, `C10_compatible_iff`, `C10_mul_conversion`, `C10_rdiv_offset_refuted`, `C10_rdiv_partial`.
* **C11** A pure conversion factor is only given when it is meaningful — *partial*. `Props/Units`. Proof: case analysis. Partial: the property is false of the code (C11_conversion_factor_refuted, units.py:501-527 uses 'and' instead of 'or'); the theorem characterises exactly when the returned factor is right.
  Theorems: `C11_conversion_factor_refuted`, `C11_conversion_factor_partial`, `C11_conversion_factor_refused_partial`.
* **C12** Declared options always hold legal values — *proved*. `Props/Options`. Proof: invariant by induction over operations. Plain dictionaries (derivative options: C61). NaN is accepted for bounded floats (C12_nan_accepted): it is neither below nor above a bound.
  Theorems: `C12_value_stays_legal`, `C12_error_leaves_unchanged`, `C12_assignment`, `C12_undeclared_raises`, `C12_nan_accepted`.
* **C13** Options locked by setup cannot change afterwards — *partial*. `Props/Options`. Proof: invariant over operations. Partial: false of the code in two ways (creation of any dictionary unlocks all; a locked option can be removed and re-declared), both refuted with witnesses.
  Theorems: `C13_lock_refuted_by_creation`, `C13_lock_refuted_by_removal`, `C13_lock_partial`.
* **C14** A deprecated option name is an alias of its replacement — *partial*. `Props/Options`. Proof: case analysis. Partial: false of the code for get (KeyError) and for assignments to derivative options, both refuted with witnesses.
  Theorems: `C14_get_refuted`, `C14_set_refuted`, `C14_alias_partial`.
* **C15** Promoted names identify variables — *proved*. `Props/Promotes`. Proof: structural induction on the system tree. 
  Theorems: `C15_accepted_iff`, `C15_unknowns_unique`, `C15_names_map_back`.
* **C16** Every connected input has exactly one source — *partial*. `Props/Connections`. Proof: reachability characterisation of the depth first search. One source, reached parameters, duplicate sources and possible exceptions are proved in full for every order of the source set. The claim about unconnected parameters is false of the code: C16_two_roots_refuted, C16_cycle_refuted, C16_skipped_refuted; C16_unconnected_reported_partial proves it for groups of parameters with one root.
  Theorems: `C16_one_source`, `C16_reached_is_connected`, `C16_error_iff_two_sources`, `C16_unconnected_reported_partial`, `C16_unconnected_lists_sound`, `C16_only_index_errors`, `C16_two_roots_refuted`, `C16_cycle_refuted`, `C16_skipped_refuted`.
* **C17** Explicit execution order is a permutation — *proved*. `Props/Paths`. Proof: list permutations. Fully proved. finding_local_list_keeps_old_order: set_order does not reorder _local_subsystems.
  Theorems: `C17_accepted_iff`, `C17_runs_in_order`, `C17_refused_unchanged`, `C17_no_add_after_order`.
* **C18** Breaking cycles leaves an acyclic graph — *proved*. `Props/AutoOrder`. Proof: well-founded recursion on the number of edges. 
  Theorems: `C18_break_cycles`, `C18_auto_order`.
* **C19** Path name arithmetic — *proved*. `Props/Paths`. Proof: list prefixes. 
  Theorems: `C19_common_ancestor`, `C19_relative_name`, `C19_nearest_child`, `C19_nearest_child_contains`.
* **C20** Driver scaling is a bijection between model and driver space — *partial*. `Props/Driver`. Proof: field arithmetic. Partial: index subsets of 2-D variables do not round trip (C20_two_dim_indices_refuted: reading selects flat entries, setting assigns rows). Proved for 1-D variables and for all shapes without index subset.
  Theorems: `C20_set_then_get_partial`, `C20_get_then_set_partial`, `C20_two_dim_indices_refuted`.
* **C21** Scaled bounds mean the same thing as the original bounds — *partial*. `Props/Driver`. Proof: order arithmetic. Partial: false for negative scalers (C21_negative_scaler_refuted: bounds are scaled but not exchanged); proved for positive scalers, design variables and constraints.
  Theorems: `C21_desvar_bounds_partial`, `C21_negative_scaler_refuted`, `C21_constraint_bounds_partial`.
* **C22** Setting one element of a design variable touches only that element — *partial*. `Props/Driver`. Proof: case analysis. Partial: false for index 0 (C22_index_zero_refuted, driver.py:481,518 test the truth value of the index); proved for all other indices and the out-of-range error.
  Theorems: `C22_index_zero_refuted`, `C22_set_element_partial`.
* **C23** Constraint registration and filtering — *proved*. `Props/Driver`. Proof: case analysis, partition by filters. Driver supporting all kinds of constraints; scalar bounds for the acceptance test.
  Theorems: `C23_constraint_accepted_iff`, `C23_unsupported_rejected`, `C23_filters_partition`.
* **C24** Constraints handed to the SciPy optimizer are equivalent to the declared ones — *proved*. `Props/Scipy`. Proof: list induction on constraints and offsets. Assumes the objective is a single scalar row, array bounds of full size (a shorter one raises IndexError in the code) and constraint names not starting with '2bl-'. The order in which SciPy calls the functions (stale cache) is not modelled.
  Theorems: `C24_satisfied_iff`, `C24_gradient_is_derivative`.
* **C25** Nonlinear Gauss-Seidel stops, and success means convergence — *partial*. `Props/NLGS`. Proof: loop invariant over arbitrary oracles. Four counterexamples: an infinite initial residual gives inf/inf = NaN, every comparison is false and the solver reports convergence; convergence in the last permitted sweep is reported as failure; with maxiter=1 there is never an error; maxiter=0 still runs one sweep. Partial theorems carry the hypotheses excluding these.
  Theorems: `C25_terminates`, `C25_sweeps_bounded_partial`, `C25_maxiter_zero_refuted`, `C25_success_partial`, `C25_infinite_residual_refuted`, `C25_error_iff_partial`, `C25_late_convergence_refuted`, `C25_maxiter_one_refuted`, `C25_maxiter_one`.
* **C26** Newton stops, and success means convergence — *partial*. `Props/Newton`. Proof: loop invariant over arbitrary oracles. Counterexamples: infinite initial residual is reported as convergence; an exception inside an iteration leaves the group's derivative type at 'user'. Sub-claims on termination, number of linear solves and the verdict are proved without restriction.
  Theorems: `C26_terminates`, `C26_linear_solves_bounded`, `C26_verdict`, `C26_success_partial`, `C26_infinite_residual_refuted`, `C26_type_restored_partial`, `C26_type_not_restored_refuted`.
* **C27** Line search accepts only sufficient decrease — *partial*. `Props/Newton`. Proof: loop invariant, composed with the Newton loop. Counterexample: an infinite norm before the step makes every comparison NaN and any state is accepted. Partial theorem: finite norm before the step.
  Theorems: `C27_terminates`, `C27_step_lengths`, `C27_sufficient_decrease_partial`, `C27_failure_reported`, `C27_infinite_base_refuted`, `C27_newton_iteration`, `C27_newton_never_worse`.
* **C28** Bounded steps stay within bounds — *partial*. `Props/Newton`. Proof: fold invariant in an ordered field. Counterexample: pass_by_obj=False given explicitly makes the code skip the bounds of the variable.
  Theorems: `C28_step_within_bounds_partial`, `C28_pass_by_obj_false_refuted`.
* **C29** Aitken relaxation stays within its limits — *proved*. `Props/NLGS`. Proof: loop invariant. Holds when aitken_alpha_min <= aitken_alpha_max (the code does not check this).
  Theorems: `C29_factor_within_limits`, `C29_relaxed_update`.
* **C30** Residual evaluation of an explicit component does not disturb its outputs — *partial*. `Props/Component`. Proof: vector arithmetic. Proved for exact arithmetic and vector variables; refuted (with witnesses) for pass_by_obj outputs, for floating point rounding and for components that raise.
  Theorems: `C30_apply_nonlinear_partial`, `C30_pbo_refuted`, `C30_rounding_refuted`, `C30_raise_refuted`.
* **C31** Reverse-mode Jacobian application is the transpose of forward mode — *proved*. `Props/ApplyLinear`. Proof: bilinear sums. 
  Theorems: `C31_adjoint`, `C31_forward_value`.
* **C32** One linear Gauss-Seidel sweep solves a feed-forward system exactly — *proved*. `Props/LinearGS`. Proof: induction over the sweep. Exactness of one sweep in both modes and of the whole solve with maxiter=1; solve zeroes du and dp first, so the contents of the vectors before the call do not matter.
  Theorems: `C32_fwd`, `C32_rev`, `C32_solve`.
* **C33** A converged linear Gauss-Seidel iterate solves the coupled system — *partial*. `Props/LinearGS`. Proof: block matrix algebra. Reverse mode and the reported residual are proved for all children; forward mode fixed-point equivalence is proved for explicit components and refuted (both directions) for implicit components and subgroups. Names are left out here: C168 shows for which names the reported residual is the true one.
  Theorems: `C33_fwd_partial`, `C33_rev`, `C33_converged_residual`, `C33_fwd_refuted`, `C33_fwd_wrong_fixpoint_refuted`.
* **C34** Forward and reverse mode give the same total derivatives — *partial*. `Props/Totals`. Proof: matrix algebra and fold over cells. Array and dict formats of Problem._calc_gradient_ln_solver, serial, one variable of interest per set. C34_dict: full statement for the dict format, both modes. C34_array_partial / C34_array_modes_agree_partial: array format when no name is requested on both sides. C34_overlap_refuted / C34_modes_differ_refuted: with a name on both sides Jslices is overwritten, the array is wrong and the modes can differ. Not modelled: parallel_derivs sets, sparsity, inactives, MPI.
  Theorems: `C34_array_partial`, `C34_array_modes_agree_partial`, `C34_dict`, `C34_overlap_refuted`, `C34_modes_differ_refuted`.
* **C35** Finite differences leave the model unchanged and are exact on affine models — *partial*. `Props/FiniteDiff`. Proof: induction over columns. System.fd_jacobian (forward, backward, central; relative and absolute steps; index subsets). Proved in exact arithmetic: inputs and result vector restored, entries are the difference quotients, exact for affine models. False: parameters inside a group keep perturbed values (C35_params_refuted), rounding (C35_rounding_refuted), stale residuals (C35_stale_refuted), design variable that is also an unknown (C35_pass_refuted). Complex step not modelled.
  Theorems: `C35_options`, `C35_indices`, `C35_restores_partial`, `C35_restores_all`, `C35_quotients`, `C35_affine_exact_partial`, `C35_params_refuted`, `C35_rounding_refuted`, `C35_stale_refuted`, `C35_pass_refuted`.
* **C36** Parallel finite difference computes each column once — *partial*. `Props/FiniteDiff`. Proof: modular partition of columns. Split of the columns over the processes and merge. Proved: each column recorded by exactly one group of processes; merged = serial on every rank for computed unknowns when there are at least as many ranks as parallel differences. False for unknowns that are perturbed inputs (C36_pass_refuted) and with too few ranks (C36_few_ranks_refuted).
  Theorems: `C36_each_column_once`, `C36_merged_partial`, `C36_pass_refuted`, `C36_few_ranks_refuted`.
* **C37** Full factorial enumerates exactly the grid — *proved*. `Props/Doe`. Proof: list products. 
  Theorems: `C37_exactly_the_grid`, `C37_count`, `C37_no_duplicates`, `C37_within_bounds`, `C37_corners`.
* **C38** Latin hypercube designs stay Latin — *partial*. `Props/Doe, MorrisMitchell`. Proof: permutation invariant. Proved for LatinHypercubeDriver (C38_plain_driver) and for OptimizedLatinHypercubeDriver with at most two generations or two dimensions. False in general: C38_optimized_refuted (perturb exchanges entries of the original design). finding_single_sample_never_differs: perturb never ends with one sample.
  Theorems: `C38_plain_driver`, `C38_optimized_partial`, `C38_optimized_refuted`, `C38_optimized_code_refuted`.
* **C39** Parallel design studies run every case exactly once — *partial*. `Props/Doe`. Proof: partition arithmetic, transition system. The division of the run list is proved in full (C39_all_cases_once, C39_one_group, C39_order, C39_scatter, C39_rounds). The run itself can hang: processes of a group other than the first one do not take part in the dummy rounds (C39_hang_refuted); no hang if each group has one process or the groups have equally many cases (C39_collectives_partial).
  Theorems: `C39_all_cases_once`, `C39_one_group`, `C39_order`, `C39_scatter`, `C39_rounds`, `C39_collectives_partial`, `C39_hang_refuted`.
* **C40** Load-balanced concurrent evaluation handles every case exactly once — *partial*. `Props/Concurrent`. Proof: invariant over reachable states, measure. For at least two workers or at least as many workers as cases. False for one worker and more than one case: only the first case is evaluated (C40_single_worker_refuted).
  Theorems: `C40_exactly_once_partial`, `C40_terminates`, `C40_serial`, `C40_single_worker_refuted`.
* **C41** Multiprocessing design study records every case and terminates — *partial*. `Props/MultiProc`. Proof: invariant over reachable states, measure. With load_balance, or if no case fails fatally. False without load_balance: a worker that had a fatal error takes and drops further cases and the main process waits for ever (C41_deadlock_refuted).
  Theorems: `C41_records_once_partial`, `C41_no_infinite_run`, `C41_deadlock_refuted`.
* **C42** Recorder include/exclude filters — *proved*. `Props/Recorder`. Proof: decision logic over histories. Filter at startup and every later record_iteration of the same system; fnmatchcase is an arbitrary predicate. The system is the one whose pathname _get_pathname finds (see C44).
  Theorems: `C42_filter_exact`, `C42_name_selected`.
* **C43** Iteration coordinates identify iterations — *partial*. `Props/Recorder`. Proof: injectivity of formatting, induction over run trees. Text form injective for all coordinates; all iterations of one driver run (driver and nested solvers of any kind and depth) have different keys. Refuted for groups run during finite differencing: metadata is None and every step repeats the same keys (C43_fd_refuted).
  Theorems: `C43_text_injective`, `C43_keys_distinct_partial`, `C43_fd_refuted`, `C43_fd_repeats`.
* **C44** The recorded system is recovered from the coordinate — *partial*. `Props/Recorder`. Proof: characterisation of the path lookup. Exact characterisation: the coordinate leads back to the system iff all systems at depth two or more use RunOnce. Refuted otherwise: an iterative solver at depth two is looked up as 'b.b.c' and recording raises KeyError.
  Theorems: `C44_pathname_iff`, `C44_filter_found_partial`, `C44_filter_found_refuted`.
* **C45** CSV rows match the header — *partial*. `Props/Recorder`. Proof: history induction. Proved for one system with an iteration first. Refuted for a recorder shared by systems of different sizes and for derivatives recorded before the first iteration (IndexError).
  Theorems: `C45_rows_match_header_partial`, `C45_rows_match_header_refuted`, `C45_derivs_first_refuted`.
* **C46** Recorded cases can be read back — *partial*. `Props/Recorder`. Proof: history induction on tables. Iterations: last recorded data by key, by (negative) number, latest. Refuted for derivatives: the reader stores them in _derivs, the documented attribute derivs is always None.
  Theorems: `C46_last_recorded_partial`, `C46_by_number`, `C46_latest`, `C46_derivs_refuted`.
* **C47** Metamodel training rows contain the training inputs — *partial*. `Props/MetaModel`. Proof: list layout. Prediction inputs and Jacobian slices: proved for all parameter lists. Training rows: proved when all parameters but the last have float data. Refuted otherwise: the column index does not advance after array (or integer) data, so the next parameter overwrites it.
  Theorems: `C47_training_rows_partial`, `C47_training_rows_refuted`, `C47_prediction_layout`, `C47_jacobian_layout`.
* **C48** Incremental training accumulates — *partial*. `Props/MetaModel`. Proof: history induction. Every history of trainings with well-formed non-empty data; inconsistent numbers of points rejected without any change. Refuted for empty data without warm restart (old outputs are reused) and after a failed training with warm restart (unfinished rows stay).
  Theorems: `C48_accumulates_partial`, `C48_inconsistent_rejected`, `C48_empty_refuted`, `C48_failure_refuted`.
* **C49** Template substitution changes exactly the requested field — *proved*. `Props/FileWrap`. Proof: induction on lines as character lists. Every line, delimiter set, field and value; layout of a line into fields and delimiters is unique. Rows before the first line wrap around to the end of the file (finding). Regular expression meta characters as delimiters are taken literally in the model.
  Theorems: `C49_layout_unique`, `C49_transfer_var`, `C49_read_back`.
* **C50** Anchors find the requested occurrence — *partial*. `Props/FileWrap`. Proof: induction on lines. Forward search and zero proved; backward search proved without anchor. Refuted: with an anchor the last line is skipped in backward searches, and text behind the anchor on the same line is never found.
  Theorems: `C50_anchor_cut`, `C50_forward`, `C50_backward_partial`, `C50_backward_anchored`, `C50_zero`, `C50_backward_anchored_refuted`, `C50_same_line_refuted`.
* **C51** Processor allocation in parallel groups — *partial*. `Props/ParGroup`. Proof: loop invariants and variant functions. Both branches of the allocation and the local subsystems of every rank. Proved: one sub-communicator per subsystem, at most the available processes, fair round robin, exact error and exact termination conditions. Refuted: minimum requirements are ignored when all requests fit, and left over processes can make the loop run forever.
  Theorems: `C51_one_communicator`, `C51_grouped_min`, `C51_error_iff`, `C51_enough_fair`, `C51_min_partial`, `C51_min_refuted`, `C51_grouped_terminates_iff_partial`, `C51_unit_requests_partial`, `C51_hangs_refuted`.
* **C52** Relevance reduction is sound — *partial*. `Props/Relevance`. Proof: reachability, block elimination in matrices. Systems and variables on paths; forward and reverse derivatives from the reduced linear system equal those of the full system. Refuted: a design variable that is a response too loses entries; unconnected states of implicit components are dropped.
  Theorems: `C52_systems_response`, `C52_systems_desvar_partial`, `C52_systems_exact`, `C52_variables_response_partial`, `C52_variables_desvar_partial`, `C52_no_voi`, `C52_forward_derivative_partial`, `C52_reverse_derivative_partial`, `C52_desvar_as_response_refuted`, `C52_state_refuted`.
* **C53** Shared derivative storage never overlaps within a parallel group — *partial*. `Props/SharedVec`. Proof: prefix sums. Vectors of unknowns and residuals: disjoint within a group, fit, storage tight. Parameters: the same unless a parameter passed by object is connected to a source that is not, which is refuted (overlap, and a following parameter without storage). Grouping of variables of interest proved to be a partition.
  Theorems: `C53_unknowns_disjoint`, `C53_unknowns_fit`, `C53_params_disjoint_partial`, `C53_params_fit_partial`, `C53_storage_tight`, `C53_single_vector`, `C53_params_refuted`, `C53_groups`.
* **C54** Assembled Jacobian equals the matrix-free operator — *partial*. `Props/Assemble`. Proof: sums over placed blocks. Assembled matrix = matrix-free operator in both modes under the conditions Assemblable (every component has a Jacobian; no src_indices, no unit conversion, no source outside the group; different params of a component have different sources; no param connected to its own component; the partial of every state with respect to itself is given). Each condition except the first is necessary: refuted by concrete cases. MVP method: proved without those conditions. Reverse matrix = transpose of forward matrix always.
  Theorems: `C54_fwd_partial`, `C54_rev_partial`, `C54_transpose`, `C54_mvp`, `C54_shared_source_refuted`, `C54_src_indices_refuted`, `C54_units_refuted`, `C54_missing_state_refuted`, `C54_self_loop_refuted`, `C54_no_jacobian`.
* **C55** Variable declarations are validated — *partial*. `Props/Declare`. Proof: decision tables, histories. Acceptance iff, effect, histories. A rejected declaration leaves all declared variables unchanged; refuted for the list of warnings when a misspelt bound is rejected after the warning was noted.
  Theorems: `C55_name_syntax`, `C55_accepted_iff`, `C55_plain`, `C55_rejected_unchanged_partial`, `C55_rejected_unchanged_refuted`, `C55_accepted_effect`, `C55_history`, `C55_after_setup`, `C55_set_indices`.
* **C56** Source index subsets are validated — *partial*. `Props/Checks`. Proof: decision tables. Every index checked and the count checked when shapes differ. Refuted: equal shapes, the number of indices is not compared; source declared with pass_by_obj=False, no check at all.
  Theorems: `C56_one_connection`, `C56_whole_source`, `C56_accepted_partial`, `C56_types_iff`, `C56_types_accepted`, `C56_unsized_target`, `C56_count_refuted`, `C56_false_flag_refuted`.
* **C57** Response surface derivatives are the derivatives of its prediction — *proved*. `Props/ResponseSurface`. Proof: induction over the offset walk, derivative of a quadratic. Exact expansion over every commutative ring and HasDerivAt over the reals, any dimension; lstsq fitting itself not modelled.
  Theorems: `C57_expansion`, `C57_derivative`, `C57_entrywise`, `C57_untrained`.
* **C58** Implicit linear system component derivatives are adjoint-consistent — *partial*. `Props/LinearSystem`. Proof: matrix algebra. Adjoint, derivative of residual, nonlinear solve and duality proved; linear solve inverts A (transpose in reverse) after a nonlinear solve with the same A; refuted when A changed since (stale LU). scipy LU trusted.
  Theorems: `C58_adjoint`, `C58_derivative`, `C58_solve_nonlinear`, `C58_solve_linear_partial`, `C58_solve_adjoint`, `C58_stale_refuted`.
* **C59** Distributed gathers take the owner's value — *partial*. `Props/Gather`. Proof: fold invariants over ranks. Needed entries and ownership proved for all distributions; entries nobody lists as missing keep different local values: refuted.
  Theorems: `C59_needed`, `C59_untouched`, `C59_identical_partial`, `C59_duplicates_refuted`, `C59_owner`, `C59_owner_exists`.
* **C60** Derivative mode selection — *proved*. `Props/Mode`. Proof: fold invariant. Decision table proved with sizes as the code counts them; unknown names give RuntimeError.
  Theorems: `C60_mode`, `C60_unknown_name`.
* **C61** The default step size follows the derivative type until the user sets one — *proved*. `Props/Options`. Proof: invariant over operations. Through current names; the deprecated name is refuted in C14_set_refuted.
  Theorems: `C61_step_size_follows_type`.
* **C62** Optimizer vector, bounds and model values line up — *proved*. `Props/Scipy`. Proof: list layout. Proved for every list of design variables; the optimizer itself is external.
  Theorems: `C62_vector_round_trip`, `C62_split_covers`, `C62_bounds_line_up`.
* **C63** An unknown outside its bounds is put back on the bound — *partial*. `Props/Newton`. Proof: ordered field arithmetic. Counterexample: a zero step gives factor -inf and value NaN. Partial theorem: non-zero step.
  Theorems: `C63_violated_returns_to_bound_partial`, `C63_zero_step_refuted`.
* **C64** src_indices compose along connection chains — *proved*. `Props/Connections`. Proof: composition of index lists. 
  Theorems: `C64_indices_follow_chain`.
* **C65** Array substitution in a template — *partial*. `Props/FileWrap`. Proof: induction on lines; overlay of the windows in reading order. One line; values in order, rest appended, everything else unchanged except that a line feed is always added, so an array that fits adds a blank line (refuted).
  Theorems: `C65_array_fields_partial`, `C65_line_feed_refuted`, `C65_array_rows_partial`, `C65_appended`.
* **C66** Parameters that refer to one file share one source — *proved*. `Props/Checks`. Proof: fold invariant. Both directions.
  Theorems: `C66_same_source`, `C66_complete`.
* **C67** Transfer indices of distributed variables address the same entry — *proved*. `Props/GroupXfer`. Proof: counting lemmas for flattened size tables. Index arrays for any number of processes, as positions in the concatenation of the local vectors; uninitialised entries of np.empty are kept apart as none.
  Theorems: `C67_distributed_source`, `C67_plain_connection`, `C67_distributed_target`, `C67_nothing_to_move`.
* **C68** Data transfer of a group delivers every connection — *partial*. `Props/GroupXfer`. Proof: layout invariants over the setup folds, then the C03/C04 refinement of DataTransfer. Serial group (one process), vectors without scalers and units (C05, C31). False in general: refuted for pass-by-object sources of parameters with src_indices and for a wrong number of src_indices, proved for groups without these (XGroupOk).
  Theorems: `C68_forward_partial`, `C68_reverse_partial`, `C68_objects_partial`, `C68_adjoint_partial`, `C68_object_source_refuted`, `C68_index_count_refuted`, `C68_object_parameter_fails_partial`.
* **C69** Two-dimensional arrays go row by row into the template — *proved*. `Props/FileWrap`. Proof: induction on lines, field overlay lemma. Values as already formatted text; the formatting of floats is not modelled. Lines already written before an IndexError stay written; the model reports the error only.
  Theorems: `C69_rows`, `C69_too_few_rows`, `C69_clear_line`.
* **C70** ExecComp declares exactly the variables of its statements — *partial*. `Props/ExecComp`. Proof: induction over the tokens of a statement with a character-level scanner lemma; sorting and dictionary lemmas. Numbers without exponents, no slices and no keyword arguments in calls (statements as token lists). C70_exponent_refuted shows a number with an exponent declares a spurious parameter.
  Theorems: `C70_declared_partial`, `C70_unknown_keyword_partial`, `C70_no_assignment`, `C70_exponent_refuted`.
* **C71** Colons in ExecComp variable names are transparent — *partial*. `Props/ExecComp`. Proof: token-level renaming: every replacement hits exactly the tokens it names; freshness of the separator by the search loop. Colon names without digits, none inside another name. Refuted for names that become equal (C71_collision_refuted) and for a name inside another (C71_prefix_refuted).
  Theorems: `C71_transparent_partial`, `C71_collision_refuted`, `C71_prefix_refuted`.
* **C72** ExecComp.linearize returns the derivatives of its statements — *partial*. `Props/ExecLin`. Proof: naturality of the evaluator under ring homomorphisms, polynomial expansion of the imaginary part, HasDerivAt of polynomials. Polynomial statements without broadcasting into the output. Refuted for broadcasting (C72_broadcast_refuted).
  Theorems: `C72_derivative_partial`, `C72_broadcast_refuted`, `C72_elementwise`, `C72_mismatch`.
* **C73** DirectSolver solves with the current Jacobian — *partial*. `Props/DirectSolver`. Proof: invariant: the matrix is due or the cached one is the current one in the current mode; induction over solves and right-hand sides. Solves in one mode and method since the last linearization; regular Jacobian; numpy/scipy assumed to solve regular systems. Refuted for a change of mode without a linearization (C73_mode_switch_refuted).
  Theorems: `C73_current_jacobian_partial`, `C73_mode_switch_refuted`.
* **C74** MultiFiMetaModel trains every level on its own data — *partial*. `Props/MultiFi`. Proof: induction over the parameters and levels on the loops of `_train`, using the row lemmas of `MetaModel`; the name accumulates its suffix, computed for three levels. Refuted for three or more levels (KeyError for a name with two suffixes) and for array data followed by another parameter; proved for two levels when only the last parameter has array data, including warm restart.
  Theorems: `C74_two_levels_partial`, `C74_three_levels_refuted`, `C74_counts_agree`, `C74_array_first_refuted`.
* **C75** A constraint's value tells whether the constraint holds — *proved*. `Props/Constraint`. Proof: induction over a grammar of expressions (no comparator and no white space problem inside an expression), then the splitting at the comparator is computed; values by the rules for `-` and parentheses. Arithmetic expressions (names, literals, + - * / **, parentheses, calls) as a grammar relation in Spec/Constraint; that float(text)==0 only for texts of value zero is a hypothesis.
  Theorems: `C75_satisfied_iff`, `C75_no_comparator`, `C75_double_equals`, `C75_output`.
* **C76** The RBF interpolator passes through its data and its gradient is its derivative — *partial*. `Props/NearNbr`. Proof: derivatives of polynomials in the scheme of `polyval`, then `ring` for every entry of the table; chain rule for the ratio of distances; neighbours do not change near a point without ties (uniqueness of the list of nearest points); interpolation from the equations for the weights. Refuted for comp=1 with one input (wrong sign) and for comp=-3; proved for all others, at every point without ties of distances (comp=0: not at training points). Contracts: cKDTree returns the nearest points, spsolve solves regular systems. Real numbers.
  Theorems: `C76_basis_partial`, `C76_supported`, `C76_one_dim_refuted`, `C76_multiquadric_refuted`, `C76_gradient_partial`, `C76_interpolates`, `C76_errors`.
* **C77** The weighted neighbour interpolator stays within its data and its gradient is its derivative — *partial*. `Props/Weighted`. Proof: weighted means; quotient rule over list sums; at a training point the difference to the value is of the order of the distance to a power of at least two. Bounds and interpolation proved; the gradient refuted at training points and after a prediction with another number of neighbours, proved elsewhere. Natural exponents, real numbers.
  Theorems: `C77_bounds`, `C77_interpolates`, `C77_gradient_partial`, `C77_training_point_refuted`, `C77_cache_refuted`.
* **C78** The linear interpolator reproduces affine functions — *partial*. `Props/LinearInterp`. Proof: a vector orthogonal to the differences of the points of a simplex is zero (Mathlib: vectorSpan of affinely independent points), so the normal is not vertical and the plane passes through all neighbours. Contract of the singular value decomposition: a non-zero vector in the null space. Refuted for the gradient of several outputs of one input; the replacement for vertical normals is not modelled.
  Theorems: `C78_plane`, `C78_reproduces`, `C78_interpolates`, `C78_gradient_partial`, `C78_one_input_refuted`.
* **C79** The Jacobian of the Kriging surrogate is the derivative of its prediction — *proved*. `Props/KrigingGrad`. Proof: chain rule in Mathlib's total derivatives (`HasFDerivAt`) through the normalization, the exponentials and the weighted sum. 
  Theorems: `C79_jacobian`.
* **C80** Kriging predicts its training values — *partial*. `Props/Kriging`. Proof: normal equations of the regularized pseudo-inverse from the contract of the decomposition; orthogonal factors keep sums of squares, Minkowski's inequality adds the two causes of error (regularization, nugget). Refutation: two training points, the weights found as the unique solution of the normal equations. Equality is refuted (C80_refuted: two points, every nugget, decomposition and hyper-parameters). C80_training_error_partial bounds the root mean square error at the training points by the standard deviation times (1e-8 hi/lo)^2 + nug/lo, for singular values in [lo, hi] and nuggets up to nug.
  Theorems: `C80_training_error_partial`, `C80_refuted`.
* **C81** Kriging does not depend on the units of its data — *proved*. `Props/Kriging`. Proof: mean and standard deviation of affine images; the correlation matrices and the normalized outputs are equal, hence the function given to the optimizer and everything after it. 
  Theorems: `C81_rescaling`.
* **C82** The error estimate of an output is its own — *partial*. `Props/Kriging`. Proof: the quadratic form of the pseudo-inverse as a product with the regularized solution; for opposite outputs the sum over all products of outputs cancels. Proved for one output (C82_one_output_partial); refuted for several (C82_two_outputs_refuted): the variance of an output sums the products with all outputs.
  Theorems: `C82_one_output_partial`, `C82_two_outputs_refuted`.
* **C83** A Kriging prediction depends on the last training and the value of the point only — *partial*. `Props/Kriging`. Proof: case analysis of `train`; every correlation with a point that is no training point is below one and is cut to zero. Refuted for integer points (C83_integer_refuted; C83_integer_point says what is predicted) and after failed trainings (C83_failed_training_refuted). Independence of earlier trainings (C83_determined_partial) and the refusal before any training (C83_untrained) hold.
  Theorems: `C83_determined_partial`, `C83_untrained`, `C83_integer_point`, `C83_integer_refuted`, `C83_failed_training_refuted`.
* **C84** Complex step partial derivatives are derivatives up to the square of the step — *partial*. `Props/ComplexStep`. Proof: invariants of the loops over variables and entries (no aliases of the stepped array, copies of the unknowns intact), so every column is the imaginary part of the code at the displaced entry; Taylor's formula for analytic functions with real values on the real line, whose second coefficient is real. Refutations: one component each. Proved for parameters without unit conversion and code that computes everything it assigns; refuted otherwise (C84_units_refuted, C84_handed_on_refuted).
  Theorems: `C84_derivative_partial`, `C84_units_refuted`, `C84_handed_on_refuted`.
* **C85** A complex step linearization leaves the vectors as they were — *partial*. `Props/ComplexStep`. Proof: invariant of the loops; for explicit components `resids.vec` is `-u + u`. Unknowns always and residuals of components with states are unchanged; the residuals of explicit components become zero (C85_residuals_refuted).
  Theorems: `C85_vectors_partial`, `C85_residuals_refuted`.
* **C86** When Brent reports convergence the state variable is at a root up to the tolerance — *partial*. `Props/Brent`. Proof: invariant of the loop (the residuals at the current point and at the far end of the bracket have opposite signs, the previous point lies outside), intermediate value theorem. Refutation: `f x = x`. Proved unless the root is the lower bound; refuted there (C86_lower_root_refuted).
  Theorems: `C86_converged_partial`, `C86_converges`, `C86_root_near_partial`, `C86_lower_root_refuted`.
* **C87** Brent runs the model only between the bounds and a bounded number of times — *proved*. `Props/Brent`. Proof: the same invariant and bounds on the secant and extrapolation steps, so that every step stays in the bracket; induction on the iterations left. 
  Theorems: `C87_within_bounds`, `C87_evaluations`.
* **C88** Brent does not hide failures — *partial*. `Props/Brent`. Proof: case analysis with a trace of the exceptions raised; refutation: a `RuntimeError` in a component. Exceptions other than RuntimeError reach the caller; RuntimeErrors are swallowed (C88_component_error_refuted).
  Theorems: `C88_errors_reach_caller_partial`, `C88_outcomes`, `C88_setup`, `C88_component_error_refuted`.
* **C89** check_partial_derivatives compares the Jacobian the component supplies — *proved*. `Props/CheckPartials`. Proof: the columns and rows are inner products of `apply_linear` with unit vectors; invariants of the nested loops over the dict of arrays; a sum over the Jacobian has one term. 
  Theorems: `C89_jacobians`, `C89_wrong_size`, `C89_matrix_free`, `C89_shape_accepted`.
* **C90** The errors reported by check_partial_derivatives measure the supplied partials — *proved*. `Props/CheckPartials`. Proof: C89 and properties of the Frobenius norm; the loop over pairs is an induction. 
  Theorems: `C90_report`, `C90_differences`, `C90_gap`, `C90_flags`, `C90_relative_flags`.
* **C91** A linear Gauss-Seidel solve does not depend on what earlier solves left behind — *proved*. `Props/Gmres`. Proof: two runs are related: forward by equal `du`, reverse by equal `dp` and, on the children already visited, equal `dr`; the relation is an invariant of the sweep and of the loop. 
  Theorems: `C91_stateless`.
* **C92** ScipyGMRES solves the linear system of the group — *proved*. `Props/Gmres`. Proof: induction on the run of gmres: each callback gives the product with `A` (`groupApplyFwd_dr`, `groupApplyRev_du`) or the preconditioner's function, whatever the state; C91 shows that linear Gauss-Seidel is such a preconditioner. 
  Theorems: `C92_run`, `C92_run_plain`, `C92_solution`, `C92_converged`.
* **C93** Failures of GMRES are raised — *proved*. `Props/Gmres`. Proof: induction on the right-hand sides. 
  Theorems: `C93_err_on_maxiter`, `C93_raises_iff`.
* **C94** Group.solve_linear solves for every variable of interest — *partial*. `Props/Gmres`. Proof: invariants of the two loops over the variables of interest; with C92 and C93 a bound on the residual. False for a finite-differenced group and several variables of interest: only the first is solved for.
  Theorems: `C94_user`, `C94_error_iff`, `C94_fd_partial`, `C94_fd_refuted`, `C94_gmres`.
* **C95** Assigning to a variable of a problem — *partial*. `Props/ProblemVars`. Proof: `recSet` changes one path; induction on the set of names. End to end: the table of unconnected inputs built by `setupConnections` (invariants of C16) lists exactly the connected inputs. Partial: inputs connected with each other hang on one input that is not a target; refuted otherwise. The copy is refuted for inputs.
  Theorems: `C95_unknown`, `C95_unknown_size`, `C95_unconnected`, `C95_refused`, `C95_get_unknown_name`, `C95_get_no_value`, `C95_unknown_is_copy`, `C95_linked_inputs_partial`, `C95_input_is_copy_refuted`, `C95_two_roots_refuted`, `C95_cycle_refuted`.
* **C96** Setup reports differing units and initial values of inputs that share no source — *partial*. `Props/ProblemVars`. Proof: equality of floats excludes NaN; each difference of units is seen from the input of the two that lacks them or from both; end to end with C16. Partial: NaN-free values and inputs that hang on one input; refuted otherwise.
  Theorems: `C96_no_errors_iff`, `C96_value_errors_partial`, `C96_nan_refuted`, `C96_two_roots_refuted`, `C96_linked_inputs_partial`.
* **C97** Inputs used before they are set are found — *partial*. `Props/ProblemVars`. Proof: the dict of positions is `idxOf`; the search finds the longest prefix; induction on the connections. Partial: no component connected to itself; refuted otherwise.
  Theorems: `C97_used_before_set`, `C97_error_iff`, `C97_not_yet_run_partial`, `C97_self_connection_refuted`.
* **C98** Sub-index sparsity loses no derivative in pyOptSparseDriver — *partial*. `Props/PyOpt`. Proof: Model/PyOpt.lean models `run`'s collection of index connections, `_build_sparse` and the conversion to coo. `C98_sparse_jacobian_partial`: a parameter between design variable and constraint is relevant (C52), so a dropped column belongs to an entry no such parameter reads, the constraint is constant in it and its derivative (Mathlib's `HasDerivAt`) is zero. `gradCoo_dense` gives the matrix of a coo triple. `C98_gradient_callback` lifts this to the whole dictionary, `C98_pattern` compares with the declared pattern. Refuted for promoted parameters (`C98_promoted_refuted`).. Partial: parameters connected to the design variable must not be promoted; refuted otherwise (C98_promoted_refuted). Dependence of the constraint on the design variable only through connected parameters is a hypothesis.
  Theorems: `C98_pattern`, `C98_sparse_jacobian_partial`, `C98_promoted_refuted`, `C98_gradient_callback`.
* **C99** pyOptSparseDriver's callbacks tell the optimizer whether an evaluation succeeded — *partial*. `Props/PyOpt`. Proof: Callbacks over an abstract model (set, solve, read, record, each of which may raise). `C99_valid_responses`, `C99_flag`, `C99_analysis_error`, `C99_gradient_analysis_error`, `C99_gradient_flag_partial`; `C99_gradient_failure_refuted`: the gradient callback returns fail = 0 after any exception but AnalysisError.. Partial: the gradient callback reports success after exceptions other than AnalysisError (C99_gradient_failure_refuted).
  Theorems: `C99_valid_responses`, `C99_flag`, `C99_analysis_error`, `C99_gradient_analysis_error`, `C99_gradient_failure_refuted`, `C99_gradient_flag_partial`.
* **C100** active_tol leaves out only constraints that are far from their bounds — *partial*. `Props/PyOpt`. Proof: `C100_one_bound_partial` and `C100_row_partial` by induction over the entries and constraints; `C100_two_sided_refuted`, `C100_equality_refuted`, `C100_group_refuted` are the cases in which active rows become zero.. Partial: constraints with exactly one bound outside parallel groups; refuted for two-sided and equality constraints and for parallel groups.
  Theorems: `C100_one_bound_partial`, `C100_tolerance_kinds`, `C100_row_partial`, `C100_untouched`, `C100_two_sided_refuted`, `C100_equality_refuted`, `C100_group_refuted`.
* **C101** Linear constraints mean the same to pyOptSparse and to the user — *partial*. `Props/PyOpt`. Proof: `C101_nonlinear`, `C101_linear_partial` (no constant term), `C101_scaled_constant` (where the constant comes from), `C101_offset_refuted`. That pyoptsparse takes `lower ≤ A x ≤ upper` for linear constraints is part of the specification.. Partial: linear constraints without a constant term in scaled variables; refuted with one (C101_offset_refuted).
  Theorems: `C101_nonlinear`, `C101_linear_partial`, `C101_scaled_constant`, `C101_offset_refuted`.
* **C102** After a pyOptSparse run the model is at the optimizer's solution — *proved*. `Props/PyOpt`. Proof: `C102_final_state`, `C102_returns` over the same abstract model.. 
  Theorems: `C102_final_state`, `C102_returns`.
* **C103** Running a SubProblem component is running the wrapped problem — *proved*. `Props/SubProblem`. Proof: Induction over the exposed names: `subSetParams_iff` relates the loop to `SubOps.AssignAll`, `assignAll_val` gives the values after it, `subPull_spec` and `subBack_spec` describe the two copying loops.. 
  Theorems: `C103_run`, `C103_failed_run`, `C103_returns`, `C103_unreadable`.
* **C104** linearize of a SubProblem returns the derivative of its run — *partial*. `Props/SubProblem`. Proof: `C104_blocks`: induction over the nested dictionary. The derivative theorems compute the run and the returned block for a problem whose driver replaces the design by `opt p x` (`drivenOut_eq`, `drivenLin_eq`), then use the chain rule; an optimizing driver with objective (x-p)² refutes the general claim.. False for optimizing drivers (C104_optimizer_refuted); proved for drivers that leave the design unchanged and for outputs stationary in the design.
  Theorems: `C104_blocks`, `C104_plain_driver_partial`, `C104_stationary_partial`, `C104_optimizer_refuted`.
* **C105** SubProblem exposes as parameters exactly the variables that can be set — *proved*. `Props/SubProblem`. Proof: `subParam_fold`: induction over the exposed parameters, separating those accepted from those refused; `subSetup_eq` opens the three loops.. 
  Theorems: `C105_accepted`, `C105_refused`.
* **C106** Passing a file variable copies the file — *partial*. `Props/External`. Proof: Case analysis of validation and copying; `universalNl_id` (functional induction) for text without carriage returns. A file under two names is emptied (`C106_alias_loses`, for all such disks), text with carriage returns is changed.. False for one file under two names and for text files with carriage returns; proved otherwise.
  Theorems: `C106_copied_partial`, `C106_alias_loses`, `C106_alias_refuted`, `C106_newline_refuted`, `C106_refused`.
* **C107** ExternalCode reports every failure of the external program — *partial*. `Props/External`. Proof: Case analysis of the run; `missingFiles_nil` relates the filter to the existence of all files. A file left by an earlier run refutes that outputs are those of this run.. The iff and the error classes are proved in full; that the output files are those of this run is false for files left by an earlier run.
  Theorems: `C107_returns_iff`, `C107_errors`, `C107_outputs_new_partial`, `C107_stale_refuted`.
* **C108** A command is stopped only after its timeout, and then soon — *proved*. `Props/External`. Proof: `waitLoop_code` and `waitLoop_timeout`: induction over the number of polls; `polls_nat` and `first_poll` relate polls to times by floor and ceiling, over every ordered field with a floor function.. 
  Theorems: `C108_finished`, `C108_stopped`, `C108_forever`, `C108_default_delay`.
* **C109** find_files returns exactly the matching files — *proved*. `Props/External`. Proof: Mutual induction over trees and lists of subdirectories (`mem_walkTree`, `mem_walkDirs`, `walkTree_nodup`), against the inductive relation `FTree.Has`.. 
  Theorems: `C109_found`, `C109_once`.
* **C110** find_up finds the nearest directory above — *partial*. `Props/External`. Proof: Induction over the components of the path; the nearest directory is the longest suffix (components are reversed) with the name.. False for relative start directories; proved for absolute ones.
  Theorems: `C110_nearest_partial`, `C110_missing_start`, `C110_relative_refuted`.
* **C111** setup reports every group whose linear solver cannot solve it — *partial*. `Props/CheckSolvers`. Proof: `solverStep_inv`: invariant over the groups already visited (solver table, errors, states, solved states), by induction over the list; `strong_iff` relates components of size above one to mutual dependence; the topmost solving group above a state is found by strong induction on path length.. Proved for problems that are not sub-problems; false for a sub-problem set up again and for a component connected to itself.
  Theorems: `C111_cycles_partial`, `C111_states_partial`, `C111_complex_step_partial`, `C111_second_setup_refuted`, `C111_self_feedback_refuted`.
* **C112** The report on execution order is exact — *proved*. `Props/CheckSolvers`. Proof: `reported_loop`: induction over the remaining order; `mem_dfs_iff` turns the depth first search into reachability. Clean report: positions increase along every path (`before_iff_idxOf`), with `C18_break_cycles`.. 
  Theorems: `C112_reported_iff`, `C112_clean_iff`, `C112_checkGraph_clean`.
* **C113** setup chooses an execution order that follows the connections — *partial*. `Props/CheckSolvers`. Proof: `C18_auto_order` gives the order, `C17_accepted_iff` and `C17_runs_in_order` that `set_order` accepts and obeys it. A second setup with the reversed connection refutes the claim for repeated setups.. Proved for the first setup; false for later setups with changed connections.
  Theorems: `C113_first_setup_partial`, `C113_user_order`, `C113_second_setup_refuted`.
* **C114** A load balanced design study over MPI runs and records every case once — *proved*. `Props/MpiDoe`. Proof: Transition system of master, workers and messages. `LbInv` relates a state to ghosts: the case of each group, what each process is doing, the list of completed cases. Every step keeps it (`inv_step`); a state without successor is finished (`lb_progress`); `lbMeasure` falls with every step. `C114_outcome` reads the final state off the invariant. Ranks: closed form of `evenly_distrib_idxs`.. 
  Theorems: `C114_ranks`, `C114_no_deadlock`, `C114_terminates`, `C114_outcome`, `C114_all_recorded`.
* **C115** An exception in a case ends a parallel design study on every process — *partial*. `Props/ParDoe`. Proof: Transition system in which a collective call is one step of all its members. `FxInv`: all first processes are in the same stage of the same round, the others at most at the next collective call. `fxMeasure` falls with every step. Three concrete runs refute the claim in general.. Proved with a fixed distribution when no process gets a dummy case, or when no case raises a fatal error and the recorders are serial, provided the other processes of each group have as many cases as any; false otherwise and with load balancing.
  Theorems: `C115_fixed_partial`, `C115_fixed_terminates`, `C115_fatal_with_dummies_refuted`, `C115_parallel_recorder_refuted`, `C115_load_balanced_refuted`.
* **C116** calc_gradient by finite differences has the layout and the scaling of the analytic gradient — *partial*. `Props/GradFd`. Proof: The names of the lists are resolved to targets (`resolve_spec`), the blocks come from C35 (`gradJfd_spec`); invariants of the two loops say which cells (array) or which entries of the dict are final. The dict holds references to the arrays of `fd_jacobian`, which are scaled in place, so the model keeps them as references into a store.. Proved for distinct independent variables that are connected and are not themselves requested as unknowns, and, in dict format, for distinct unknowns; false otherwise.
  Theorems: `C116_array_partial`, `C116_dict_partial`, `C116_affine_partial`, `C116_method`, `C116_overlap_refuted`, `C116_repeated_refuted`, `C116_unconnected_refuted`.
* **C117** FileParser.transfer_var returns the field as number or text — *partial*. `Props/FileParse`. Proof: Spec/FileParse.lean says which words stand for which values (`Stands`), without reference to tokens. `lexItem_spec` shows that the token matched first on such a word, followed by a delimiter or the line end, takes exactly the word; an induction over the layout of the line gives all fields (`lexItems_fields`), also after the expansion of tabs (`expandTabs_layout`). The round trip uses the layout theorem of C49.. Proved for words with a value in the sense of Spec/FileParse.lean and delimiters that are no letters, digits or one of . # %; false for signed numbers with exponent and no point, -Inf, words with a numeric prefix, and tabs as only delimiter.
  Theorems: `C117_fields_partial`, `C117_var_partial`, `C117_no_row`, `C117_blank`, `C117_round_trip_partial`, `C117_negative_exponent_refuted`, `C117_minus_inf_refuted`, `C117_split_refuted`, `C117_tab_refuted`.
* **C118** FileParser.transfer_keyvar reads from the line of the requested occurrence of the key — *partial*. `Props/FileParse`. Proof: Induction over the lines for the search (`keyRow_nth`, `keyRow_none`) and for the replacement of the key (`replaceKey_first`); the fields by C117.. Proved forward from any anchor and backward without anchor; false backward from an anchor.
  Theorems: `C118_forward_partial`, `C118_offset_partial`, `C118_missing`, `C118_backward_partial`, `C118_anchored_refuted`, `C118_backward_missing_refuted`, `C118_zero`.
* **C119** FileParser.transfer_array and transfer_2Darray return the fields of the block — *partial*. `Props/FileParse`. Proof: Induction over the lines with the fields of C117; python slices are modelled with clamping and negative bounds, the assignment of rows with broadcasting and with the caught exception.. Proved for regular blocks inside the file; ragged rows, texts and missing rows are not reported.
  Theorems: `C119_array_partial`, `C119_one_row_partial`, `C119_no_end`, `C119_short_file_refuted`, `C119_matrix_partial`, `C119_short_row_refuted`, `C119_text_row_refuted`, `C119_missing_rows_refuted`, `C119_order`, `C119_zero_end`, `C119_beyond`.
* **C120** FileParser skips comments and keeps all other text — *partial*. `Props/FileParse`. Proof: Induction over the lines; the cut at the comment character is stated as the longest prefix without it.. Proved if an end-of-line comment character is given or none at all; false with only a full-line comment character.
  Theorems: `C120_eol_partial`, `C120_none`, `C120_full_line_refuted`, `C120_blank_line_refuted`.
* **C121** Groups of variables of interest and relevance reduction do not change total derivatives — *partial*. `Props/ParDeriv`. Proof: Each vector (full or reduced) has its own linear system with exact derivative matrix; that the reduced systems give the same derivatives is C52 and is a hypothesis here. The allocation loop is an invariant over prefixes of the group (`pdAlloc_spec`); a unit right-hand side yields a column or row of the derivative matrix (`unit_fwd`, `unit_rev`); a store keeps the cells that are right and adds those of its column or row (`storePD_spec`), which `fold_cells` carries through outputs, solutions, indices and groups.. Proved for requests of whole groups, with LinearGaussSeidel at the root if a group has several members, in the mode that setup prepared; false otherwise. Dict format, one process.
  Theorems: `C121_groups_partial`, `C121_same_partial`, `C121_size_error`, `C121_solver_refuted`, `C121_part_refuted`, `C121_mode_refuted`.
* **C122** Sparsity patterns and inactive constraints only leave out what they name — *partial*. `Props/ParDeriv`. Proof: The same induction; the target of a cell is zero for inactive rows in reverse mode, and pairs outside the pattern have no key (`pdInit_spec`).. Proved when the constraints of a group are inactive together; false otherwise.
  Theorems: `C122_leaves_out_partial`, `C122_inactive_group_refuted`, `C122_inactive_solved_refuted`.
* **C123** The meaning of a unit string does not depend on what was looked up before — *partial*. `Props/UnitStr`. Proof: The library is a state (units, cache) threaded through `find_unit`; python's parser is a parameter of which only the treatment of names is assumed (`PyNames`). An invariant over histories (`UnitInv`: units of the library are kept, every added name has a reading, the cache agrees with evaluation) and a second one for settled names (`addItems_settled`).. Proved for names with one reading; library names, soundness and unparsable strings without that restriction. False otherwise.
  Theorems: `C123_history_partial`, `C123_name_partial`, `C123_library`, `C123_sound`, `C123_unparsed`, `C123_history_refuted`, `C123_valid_refuted`, `C123_number_refuted`.
* **C124** A unit library may define its units in any order — *partial*. `Props/UnitStr`. Proof: Both loads are compared with the finished library: along a load every unit defined so far agrees with it (`LoadInv`), evaluation in a sub-library either agrees or raises `NameError` (`eval_sub`), and a pass of the retry loop that defines nothing means that nothing is left (`load_progress`). Termination of the retry loop is part of the proof.. Proved for definitions by expression and unknown names raising NameError.
  Theorems: `C124_any_order_partial`, `C124_holds_partial`, `C124_python3_refuted`, `C124_offset_refuted`.
* **C125** The printed name of a unit denotes the unit — *partial*. `Props/UnitStr`. Proof: Units are embedded in an abelian group (factor, powers, ...), names are represented by the product of their entries (`URep`, `NRep`, `NumDict.total`), and the printed expression evaluates to that product (`evals_name`).. Proved for expressions of units without offset in which some unit is left and numbers are not zero.
  Theorems: `C125_same_unit`, `C125_name_partial`, `C125_cancelled_refuted`, `C125_offset_refuted`.
* **C126** Arithmetic and comparison of quantities do not depend on the units they are expressed in — *partial*. `Props/UnitStr`. Proof: Directly from the formulas with the base quantity `(x + offset) * factor` as specification.. Equality, order and base units proved for units without offset (base units: with a dimension); products, quotients and powers proved in full.
  Theorems: `C126_eq_partial`, `C126_lt_partial`, `C126_mul`, `C126_div`, `C126_pow`, `C126_base_partial`, `C126_eq_refuted`, `C126_lt_refuted`, `C126_base_refuted`.
* **C127** Groups of parallel derivatives split the variables of interest — *partial*. `Props/VoiSets`. Proof: Invariant of all drivers that can be built (`built_inv`): names are unique and sets are disjoint. The two loops of `_of_interest` are computed by induction (`voiStep_fold`, `setStep_fold`).. Design variables in full; outputs if no variable is objective and constraint; declaration for lists of names.
  Theorems: `C127_desvars`, `C127_outputs_partial`, `C127_declare_partial`, `C127_both_refuted`, `C127_iterator_refuted`, `C127_serial`.
* **C128** The gradient a driver gets is that of its scaled functions — *partial*. `Props/VoiSets`. Proof: Lookup in the conversion dictionaries built by the loops (`conv_fold`), then numpy's in-place multiplication of rows and columns (`imul_entries`, `imul_single`).. Proved if the design variable (forward) or the response (reverse, finite differences) has one scale factor; false otherwise.
  Theorems: `C128_fwd_partial`, `C128_rev_partial`, `C128_fd_partial`, `C128_indices_partial`, `C128_fwd_refuted`, `C128_rev_refuted`, `C128_fd_refuted`, `C128_both_refuted`.
* **C129** Inputs and outputs of a finite differenced group — *proved*. `Props/FdGroup`. Proof: Names are joined and split parts (`myPath_spec`, `rsplitHead_dotted`, `find_at`), then induction over the connections (`append_fold`).. Both selections in full.
  Theorems: `C129_params`, `C129_unknowns`.
* **C130** The Jacobian of a finite differenced group — *partial*. `Props/FdGroup`. Proof: Names are resolved to slices of the params (`fdVar_param`, `mapM_fdVar`), the quotients come from C35.. For inputs from outside whose relative name is not an absolute name elsewhere; exact arithmetic.
  Theorems: `C130_quotients_partial`, `C130_affine_partial`, `C130_inner_refuted`, `C130_clash_refuted`.
* **C131** Finite differenced groups in the linear solve — *partial*. `Props/FdGroup`. Proof: A sweep with several variables of interest is, for a served one, the sweep of C32 (`voiStepFwd_one`, `voiStepRev_one`); a group that enters with its Jacobian has minus the identity as diagonal block (`outward_A`).. For a variable of interest that is first in its set, or if no child is finite differenced.
  Theorems: `C131_fwd_partial`, `C131_rev_partial`, `C131_fwd_refuted`, `C131_rev_refuted`.
* **C132** Co-kriging passes through the samples of the highest fidelity — *partial*. `Props/CoKriging`. Proof: The matrices of `predict` are expressed with the inverse of the correlation matrix (`low_eq`, `up_eq`, `rlf_trained`), which at a sample is a unit vector (`sample_inv`); induction over the levels (`upto_sample`). The refutation solves the 2 by 2 system in closed form.. For given correlation parameters and exact arithmetic. Interpolation is stated without the nugget; with the nugget the predictor has the stated form and reproduces the data up to nugget times its weights (C132_form_partial, two levels or more). Refuted for parameters found by the optimizer.
  Theorems: `C132_interpolates_partial`, `C132_form_partial`, `C132_optimizer_refuted`.
* **C133** Predicted error of co-kriging — *partial*. `Props/CoKriging`. Proof: The Gaussian kernel is positive semidefinite (`kernel_nonneg`, a limit of squares), hence 1 - r R^-1 r >= 0 (`one_sub_nonneg`); induction over the levels.. For given correlation parameters, exact arithmetic.
  Theorems: `C133_nonneg_partial`, `C133_total_partial`.
* **C134** Co-kriging with one level is the best linear unbiased predictor — *partial*. `Props/CoKriging`. Proof: Completing the square in the inverse correlation matrix (`blup`, `errVar_ge`).. For given correlation parameters, exact arithmetic.
  Theorems: `C134_blup_partial`.
* **C135** Co-kriging does not depend on the units of the outputs — *partial*. `Props/CoKriging`. Proof: The regression matrix in other units is the old one times an invertible matrix (`ckT`, `design_cols`), the estimates transform accordingly (`rescale_core`, `rescale_rho`); induction over the levels (`ups_rescale`).. For given correlation parameters, exact arithmetic.
  Theorems: `C135_rescale_partial`.
* **C136** Which training data co-kriging accepts — *proved*. `Props/CoKriging`. Proof: `rlf` succeeds exactly for an injective regression matrix that does not reproduce the outputs (`rlf_ok`, `trained_adequate`); induction over the levels (`levels_iff`).. The claim itself is about given correlation parameters. Exact arithmetic.
  Theorems: `C136_trains_iff`.
* **C137** Training a co-kriging surrogate again — *partial*. `Props/CoKriging`. Proof: After training every level has given parameters, for which the optimizer is not called (`fits_opt`, `fits_kept`).. For given correlation parameters and the same number of levels. Otherwise refuted.
  Theorems: `C137_frozen`, `C137_levels`, `C137_retrain_partial`, `C137_history_refuted`.
* **C138** Co-kriging checks the shapes of the training data — *partial*. `Props/CoKriging`. Proof: Induction over the levels (`shapeLoop_ok`).. For all levels except the lowest; refuted for the lowest.
  Theorems: `C138_shapes_partial`, `C138_lowest_refuted`.
* **C139** Namelist files can be read back — *partial*. `Props/Namelist`. Proof: Every token of pyparsing is followed on the text of one line (`tokWord_spec`, `tokData_nums`, `tokCards_spec`, `tokRow_spec`), and it is shown that no earlier alternative of `searchString` matches at any position of the line (`hits_false`); a line is then a step of the state (`line_nums`, `line_str`, `line_bool`, `row_first`, `row_next`, `line_comment`, `line_head`, `line_end`), texts are composed with `Runs`, by induction over rows, cards and groups. Refutations by evaluation.. False of the code for ten kinds of values and names (refuted theorems); C139_roundtrip_partial proves the claim for all decks whose names are alphanumeric, numbers are written in a notation with a point or without sign and exponent alone, strings have no quotes or exclamation marks, arrays have at least two elements or rows.
  Theorems: `C139_roundtrip_partial`, `C139_written`, `C139_exponent_refuted`, `C139_exclamation_refuted`, `C139_quote_refuted`, `C139_lists_refuted`, `C139_shape_refuted`, `C139_underscore_refuted`, `C139_title_refuted`, `C139_comment_refuted`, `C139_nan_refuted`, `C139_delimiters_refuted`, `C139_ragged_rows`.
* **C140** load_model accounts for every variable of a namelist file — *partial*. `Props/Namelist`. Proof: Invariant of the loop over the groups (`loadGroup_inv`), by induction over the groups from the end; the loop over the cards is a fold over `servedCards` (`cardLoop_val`, `cardLoop_unlinked`), whose targets do not change since the names of the params do not (`cardLoop_same`).. True except that before setup a number for an array is not made an array (C140_before_setup_refuted). The other theorems hold for all files, rules and params.
  Theorems: `C140_empty`, `C140_unlisted`, `C140_values`, `C140_unlinked`, `C140_accounted`, `C140_last`, `C140_errors`, `C140_single`, `C140_before_setup_refuted`.
* **C141** find_card finds the variable — *partial*. `Props/Namelist`. Proof: `lookup_first` for groups and cards.. Refuted for a file with two groups of the same name; C141_find_partial says exactly what is found.
  Theorems: `C141_find_partial`, `C141_errors`, `C141_second_refuted`.
* **C142** Namelist files written by hand are read as Fortran would read them — *proved*. `Props/NamelistHand`. Proof: The tokens of `C139` with something behind the card (`AfterCard`): `tokCard_rest`, `moreCards_spec` by induction over the cards of a line, `tokNum_name` (a name is not taken for a further number). Each kind of line is a step of the state (`handLine_run`), lines are composed by induction (`handLines_run`).. Layouts as listed in Spec/NamelistHand: several numeric cards on a line, continuation lines, repeat counts, first indices, one-line groups; strings and truth values in such lines are not covered. Findings: counts of zero, names that begin with Inf/NaN, a scalar continued by several numbers.
  Theorems: `C142_lines`, `C142_one_line`.
* **C143** Explicit connections join exactly the variables that the connect calls of all groups name — *proved*. `Props/Explicit`. Proof: `ConnInv` (distinct targets, targets are params of the groups so far, and what is listed) is kept by every append (`ConnInv.append`), over the sources and targets of a group (`src_fold`) and by `update` with the connections of a subgroup that shares no param (`ConnInv.update`); mutual induction over the tree of groups (`conns_spec`, `subs_spec`). The errors by the same induction (`conns_error`).. Iterators and negative integers as src_indices are not modelled; subgroups share no params because absolute names begin with the path of the group.
  Theorems: `C143_sources`, `C143_errors`, `C143_calls`, `C143_call_errors`.
* **C144** A param without a shape takes shape, size and value from its source — *partial*. `Props/Explicit`. Proof: Step by step (`shapeStep_spec`, `shapeStep_error`) and induction over the connections, whose targets are distinct. Refuted for sources that are numbers or arrays of two dimensions, by concrete setups; the partial theorem is for sources of one dimension.. Holds for one-dimensional sources and for connections without indices. Refuted for sources of two dimensions (rows are taken instead of entries) and for numbers (TypeError). Empty index lists give a float array in numpy, not modelled.
  Theorems: `C144_params_partial`, `C144_errors`, `C144_two_dimensional_refuted`, `C144_rows_refuted`, `C144_number_refuted`.
* **C145** A profile counts every call once, under its callers, without the profiler's overhead — *partial*. `Props/Profile`. Proof: The records of an execution without exceptions are a permutation of its calls (`runCall_quiet`, mutual induction over the call tree). Counting is a fold over the records (`profile_main`), the overheads of the paths below a path are the overheads of the calls inside its calls, and the totals are a sum over the nodes with a name (`addTotal_fold`, `sum_paths`, `sum_count`). Refuted for the root and for exceptions by concrete executions.. Executions whose profiled calls end without an exception: nodes and totals proved, the root's time is the sum of its children less their overheads (C145_root_partial), which refutes the claim for the root; exceptions refute it (KeyError).
  Theorems: `C145_nodes`, `C145_totals`, `C145_root_partial`, `C145_root_refuted`, `C145_exception_refuted`.
* **C146** The grand totals of a profile add up the calls of each method — *partial*. `Props/Profile`. Proof: Fold over the totals (`C146_grand`), then the sum over the functions of the sums over their calls (`sum_funcs`). Refuted for several processes by a concrete run.. Proved for the names as they are shown, hence for one process; refuted for several processes, where the shown names end with the rank.
  Theorems: `C146_grand`, `C146_calls`, `C146_partial`, `C146_ranks_refuted`.
* **C147** list_connections lists every connection once — *partial*. `Props/Reports`. Proof: The rows are collected in dictionaries of lists; appending is a permutation of the flattened dictionary (`flat_append`, `dict_fold`, `unknowns_fold`), and what is written for a dictionary with distinct keys is the sorted table (`write_table`). Distinct sources have distinct texts (`srcText_inj`). Refuted for names of variables in subsystems.. Tables proved for systems, for components and for absolute names; for other names only if no connection has both ends among the matching variables (refuted otherwise). fnmatch is a parameter. Names contain no blanks, as add_param and add_output ensure.
  Theorems: `C147_shown`, `C147_list`, `C147_target_text`, `C147_source_text`, `C147_by_comp`, `C147_var_partial`, `C147_absolute`, `C147_twice_refuted`.
* **C148** list_params finds unconnected params and params fed from outside — *partial*. `Props/Reports`. Proof: Filters; `lstrip` with the characters of the path against dropping the path. Refuted by a concrete path.. The returned lists are proved; the printed names of params fed from outside are right only if they begin with a character that is not in the path (refuted otherwise).
  Theorems: `C148_lists`, `C148_unconnected_line`, `C148_outside_line_partial`, `C148_outside_line_top`, `C148_line_refuted`.
* **C149** list_unit_conv lists the connections with different units — *proved*. `Props/Reports`. Proof: Induction over the connections (`units_fold`); names relative to the system are injective (`rel_inj`).. The remark about variables passed by object in the printed lines is not modelled.
  Theorems: `C149_units`.
* **C150** check_setup reports exactly the dangling params and the components without unknowns or connections — *proved*. `Props/Reports`. Proof: Filters and sorting; `beforeDot_eq` for the path of a variable's component.. Recorders, MPI, solver and driver reports are not modelled here; cycles and order are C112, mode C60.
  Theorems: `C150_dangling`, `C150_no_unknowns`, `C150_no_connections`.
* **C151** A driver accepts exactly the variables it can set and differentiate — *proved*. `Props/DriverSetup`. Proof: Case analysis per variable (`setupVar_ok`), induction over the variables (`setupVars_spec`).. Cached scalers are C128.
  Theorems: `C151_setup`.
* **C152** check_setup warns of variables passed by object that derivatives depend on — *partial*. `Props/DriverSetup`. Proof: Membership in the filtered lists; refuted by a promoted connection.. The result is proved; the report is refuted for promoted variables.
  Theorems: `C152_result`, `C152_report_partial`, `C152_report_refuted`.
* **C153** What the HDF5 recorder stores can be read back as a case — *partial*. `Props/Hdf5`. Proof: Invariant over the history: what the file holds under each key (`keyState_run`), proved for each call (`keyState_iter`, `keyState_derivs`); calls keep all values at their paths (`C153_kept`). Reading is by lookup through the tree (`lookup_toPy`). The flag, the derivatives and the order are refuted.. The values of the three vectors are read back for all histories (C153_case_partial); the file also holds the flag and the derivatives (C153_success_stored, C153_derivs_stored), but every case that is read back lacks them (C153_status_refuted), and cases are numbered alphabetically instead of in order of the run (C153_by_number, C153_order_refuted). Nothing stored is changed (C153_kept), a repeated key raises ValueError (C153_repeated), the other errors are C153_not_numeric, C153_derivs_first, C153_derivs_type.
  Theorems: `C153_kept`, `C153_derivs_stored`, `C153_case_partial`, `C153_status_refuted`, `C153_success_stored`, `C153_repeated`, `C153_derivs_first`, `C153_not_numeric`, `C153_derivs_type`, `C153_by_number`, `C153_order_refuted`.
* **C154** A serial design of experiments keeps the responses of every case — *partial*. `Props/SerialDoe`. Proof: The loop follows the trace of the cases (`loop_trace`, induction over the cases); the recorder selects the responses from the vectors (`respRecord_eq`); what is kept of a scalar does not depend on the state in which it is looked at (`look_keepP`, `look_keepU`). Refuted for arrays.. Proved for responses that are scalars, have converted units or are passed by object (C154_responses_partial); false for arrays, whose responses are views that all show the current values of the model (C154_arrays_shared, C154_arrays_refuted). C154_add_response is about adding responses.
  Theorems: `C154_responses_partial`, `C154_arrays_shared`, `C154_array_params_shared`, `C154_arrays_refuted`, `C154_add_response`.
* **C155** The deprecated fd_options still say what derivatives are computed — *partial*. `Props/FdOptions`. Proof: Invariant for an option with a list of legal values under assignments (`EnumInv.set`), folded over the history (`enum_all`).. What each assignment does and what is read afterwards, for all sequences (C155_settings_partial); the type of derivatives depends on the order (C155_order_refuted), and the form complex_step and extra_check_partials_form cannot be read back (C155_read_refuted).
  Theorems: `C155_settings_partial`, `C155_read_refuted`, `C155_order_refuted`.
* **C156** A floating point error names the variables that are not finite, once — *partial*. `Props/SolverBase`. Proof: Induction over the path to the component that raises (`runSys_stops`): what comes out is a fold over the solvers around it, on which all but the first reporting one act as the identity (`fold_fixed`).. The message for all hierarchies whose reporting solver has no remote scalar parameters (C156_message_partial, C156_named), errors reported on already, other exceptions, solvers without the decorator and runs without errors (C156_once, C156_other, C156_silent, C156_quiet); with a remote scalar parameter the error is hidden by a TypeError (C156_remote_refuted).
  Theorems: `C156_message_partial`, `C156_named`, `C156_once`, `C156_other`, `C156_silent`, `C156_quiet`, `C156_remote_refuted`.
* **C157** Printed norms tell which system they are about — *proved*. `Props/SolverBase`. Proof: The line is cut at the first non-blank and at the first closing bracket (`normLine_name`); dots are counted over the joined path (`count_pyJoin`).. Blanks, the system, and the text (C157_blanks, C157_system, C157_text).
  Theorems: `C157_blanks`, `C157_system`, `C157_text`.
* **C158** What is recorded does not depend on the number of processes — *partial*. `Props/RecMpi`. Proof: Each process contributes what it owns (`localVars_spec`, `VecFacts.locals`); ownership is unique (from C59), so merging the gathered dictionaries loses nothing (`fold_update`, `gatherVars_spec`).. Serial recorders of systems that run on the first process, and parallel recorders, for all numbers of processes (C158_serial_partial, C158_serial_others, C158_parallel_partial, C158_one_owner); mixed recorders lose data or fail (C158_mixed_refuted), and serial recorders of groups on other processes write nothing (C158_subgroup_refuted). Parallel designs of experiments are not covered here.
  Theorems: `C158_serial_partial`, `C158_serial_others`, `C158_parallel_partial`, `C158_one_owner`, `C158_mixed_refuted`, `C158_subgroup_refuted`.
* **C159** The text of a DumpRecorder says what happened, line by line — *partial*. `Props/Dump`. Proof: The text is split into lines (`record_text`, `partText_lines`), sorting is a permutation in order (`byName_inOrder`); the rank is put in front of the last dot of the name (`dumpFile_dot`).. Iterations that succeeded, derivatives, and files (C159_iteration_partial, C159_derivs_partial, C159_files, C159_directory_partial); failed iterations lose the line about success (C159_failed_refuted, C159_failed), and a dot in the directory alone moves the file (C159_directory_refuted).
  Theorems: `C159_iteration_partial`, `C159_derivs_partial`, `C159_failed_refuted`, `C159_failed`, `C159_files`, `C159_directory_partial`, `C159_directory_refuted`.
* **C160** check_total_derivatives checks every pair, in both modes, and reports the true distances — *partial*. `Props/CheckTotals`. Proof: The lists of variables are characterised with C129 at the root (`indeps_spec`, `resps_spec`), the flat dict by its entries (`flat_spec`), the loop over the pairs by induction (`tot_fold`); the mode under relevance reduction is C60's.. Pairs, modes and errors for every model in which calc_gradient succeeds (C160_pairs_partial, C160_reduced_partial, C160_zero, C160_run_fails); out_stream=None fails before the first run (C160_silent_refuted). calc_gradient itself is C34, C35 and C116.
  Theorems: `C160_pairs_partial`, `C160_reduced_partial`, `C160_silent_refuted`, `C160_run_fails`, `C160_zero`.
* **C161** The optimized Latin hypercube is at least as good as the random one it starts from — *partial*. `Props/MorrisMitchell`. Proof: The dict of counted distances has the sum of all pairs as its weighted sum (`countDist_fold`, `pairs_sum`), in the extended nonnegative reals, where the criterion is finite exactly for distinct points; the loops keep a minimum (`foldl_keep_min`). The counterexample is decided with rational sums of inverse powers (`mmphi_one`, `mm_cross`).. Criterion, search and distinct points in full (C161_criterion, C161_finite, C161_search, C161_distinct); the design is not worse than the random one for one of the q (C161_driver_partial), but it can be worse for others (C161_all_refuted). Norms with a finite order only.
  Theorems: `C161_criterion`, `C161_finite`, `C161_search`, `C161_driver_partial`, `C161_distinct`, `C161_all_refuted`.
* **C162** PetscKSP reports a linear solve truthfully — *partial*. `Props/PetscKsp`. Proof: KSP.solve is a program that calls the operator, the preconditioner and the monitor; induction on it (`runKsp_spec`) shows that every call sees a fixed operator, and what the counter and the monitor hold at the end. Induction on the right-hand sides.. Answers, exceptions and printed norms in full (C162_solution, C162_raises_iff, C162_norms). The report is correct for runs that reach the limit and, for runs that are not reported as FAILED, up to a breakdown (C162_report_partial); a converged run can be reported as failed (C162_converged_refuted) and a breakdown as converged (C162_silent_refuted). PETSc is a parameter; its promise is KspContract.
  Theorems: `C162_solution`, `C162_raises_iff`, `C162_report_partial`, `C162_converged_refuted`, `C162_silent_refuted`, `C162_norms`.
* **C163** Pass-by-object variables arrive on every process, and the transfer always ends — *partial*. `Props/ByObj`. Proof: The processes are a transition system with messages under way; two phases, before and after the barrier, are invariants (`phase1_step`, `phase2_step`) that say which messages are under way: those sent whose receive is still to come. Sends and receives of the code match (`boPlan`). Termination by the number of actions left. A message that is not buffered keeps the system in the first phase (`phase_stuck`).. Proved for values that MPI buffers (C163_delivers_partial, C163_terminates); with a value that is sent synchronously the transfer never ends (C163_deadlock_refuted). Every source has to be local somewhere; targets are distinct.
  Theorems: `C163_delivers_partial`, `C163_terminates`, `C163_deadlock_refuted`.
* **C164** Every component of a tree gets the processes it asked for — *partial*. `Props/Comms`. Proof: `Model/Comms` has `get_req_procs` and `_setup_communicators` of components, groups, parallel groups and parallel FD groups as one recursive function that a process executes with its own rank; the allocation of a parallel group is that of `Model/ParGroup`. Mutual induction over the tree: the minimum is met wherever a component runs (`C164_enough`); the communicators offered by all processes form one communicator, an invariant preserved by every split, since counting equal colors is a bijection of ranks (`C164_one_communicator`); success and presence everywhere for unit requirements (`C164_unit_partial`) and for trees without parallel groups but with nested FD groups (`C164_fd_partial`). Refutations: an accepted number on which half of the processes raise (`C164_raises_refuted`), one on which none returns (`C164_hangs_refuted`), and an FD group of several parts in a parallel group (`C164_fd_in_parallel`, `C164_fd_in_parallel_refuted`).. Sound and consistent for every tree; success only for unit requirements or without parallel groups. The full claim is refuted (C164_raises_refuted, C164_hangs_refuted, C164_fd_in_parallel_refuted).
  Theorems: `C164_enough`, `C164_one_communicator`, `C164_unit_partial`, `C164_fd_partial`, `C164_raises_refuted`, `C164_hangs_refuted`, `C164_fd_in_parallel`, `C164_fd_in_parallel_refuted`.
* **C165** Variables are local exactly where their component runs — *partial*. `Props/Comms`. Proof: Same model: a place is `unset`, `null` or a communicator, and only `null` marks the variables. `C165_local_partial`: if every parallel group has an unbounded component no process is left over, by induction over the tree. `C165_idle_refuted`: a parallel group that can use two of three processes.. Holds when every parallel group has an unbounded component; refuted in general by C165_idle_refuted.
  Theorems: `C165_local_partial`, `C165_idle_refuted`.
* **C166** The Jacobian of a component depends on the point only — *partial*. `Props/Linearize`. Proof: `Model/Linearize` has `_sys_linearize` for a component and `alloc_jacobian`; the cached dictionary is state that `linearize` may write into. `C166_alloc`: the allocated dictionary, entry by entry. `C166_alloc_value`: what filling it gives. `C166_entries`: what is made of numbers and arrays. `C166_no_history_partial`: no influence of earlier points for a method with its own dictionary and for finite differences; `C166_value_partial`: which Jacobian it is. `C166_alloc_history_partial`: the same for the allocated dictionary when the call sets every entry that an earlier call has set, by an invariant (the cache agrees with the zero matrices except where something was written) over the sequence of points. Refutations: `C166_stale_refuted`, `C166_fd_overwritten_refuted`, `C166_type_refuted`.. Holds for methods with their own dictionary and for methods that set every entry set before; refuted in general by C166_stale_refuted, C166_fd_overwritten_refuted and C166_type_refuted.
  Theorems: `C166_alloc`, `C166_no_history_partial`, `C166_value_partial`, `C166_alloc_history_partial`, `C166_entries`, `C166_alloc_value`, `C166_stale_refuted`, `C166_fd_overwritten_refuted`, `C166_type_refuted`.
* **C167** Zero residuals mean that the model is solved — *partial*. `Props/RunApply`. Proof: `Model/RunApply` has `children_solve_nonlinear`, `apply_nonlinear`, the transfers of params between levels and the mark `_run_apply` for a tree of systems, with `RunOnce`, `NLGaussSeidel` and `Newton` as programs that call them; tests of norms, steps and relaxation are arbitrary functions. Mutual induction over the tree: what a subtree can change (frame); components that are evaluated get their true residual; after a solver whose last action is a run of its children, a component that is not evaluated agrees with its inputs, because its sources run before it and are not changed afterwards. `C167_residuals_partial`, `C167_history_partial` (any sequence of runs), `C167_apply_keeps`. Refutations: `C167_self_refuted`, `C167_newton_refuted`, `C167_aitken_refuted`.. Holds without connections of a component to itself, without Aitken relaxation and with solve_subsystems for Newton; refuted otherwise by C167_self_refuted, C167_newton_refuted and C167_aitken_refuted.
  Theorems: `C167_residuals_partial`, `C167_history_partial`, `C167_run_once_partial`, `C167_apply_keeps`, `C167_self_refuted`, `C167_newton_refuted`, `C167_aitken_refuted`.
* **C168** The names of variables do not influence the linear Gauss-Seidel solver — *partial*. `Props/GsOutputs`. Proof: `Model/GsOutputs` is `Model/LinearGS` with the names of unknowns at the three levels (component, child, group), the set made by `_get_gs_outputs`, the test `var in gs_outputs` in the component, and the `IndepVarComp` that does not zero `du`. Equality with the sweeps of `Model/LinearGS`: for every state without a clash of names (`C168_sweep_partial`, `C168_components`), from the zero vector always (`C168_first_sweep`, so `C168_feed_forward`: C32 whatever the names), in reverse mode always (`C168_reverse_sweep`). `C168_norm_vector` says what `_norm` measures: the residual plus the solution at outputs that are not promoted plus `du` of an `IndepVarComp` in reverse mode; `C168_reverse_block` says what the reverse product of one child leaves in `du`, which that test reads; `C168_converged_partial` is C33's statement on reported convergence when both are absent. Refutations: `C168_wrong_convergence_refuted`, `C168_unpromoted_refuted`, `C168_indep_refuted`, `C168_clash_refuted`.. Sweeps: proved in reverse mode, for the first forward sweep, and without a clash of names. Reported convergence: proved when outputs are promoted (and no IndepVarComp in reverse mode). Refuted otherwise by four witnesses.
  Theorems: `C168_sweep_partial`, `C168_components`, `C168_first_sweep`, `C168_reverse_sweep`, `C168_feed_forward`, `C168_norm_vector`, `C168_reverse_block`, `C168_converged_partial`, `C168_wrong_convergence_refuted`, `C168_unpromoted_refuted`, `C168_indep_refuted`, `C168_clash_refuted`.
* **C169** The linear solve of a Newton solver in a group only depends on the group — *partial*. `Props/NewtonRel`. Proof: `Model/NewtonRel`: the list made by `Newton.setup`, what a component takes out of it (test of a prefix and slicing of strings), and the product of C31's model with that list. `C169_names`: the component gets exactly its params that are connected inside the group, although the prefix test alone would also match other components (the last dot of the pathname decides). `C169_scope_partial`: for a component with at least one such param the product is the same for all `dp` that agree on them. `C169_complete`: with zeros in the others it is the unrestricted product. Refutations: `C169_outside_refuted`, `C169_fd_group_refuted`.. Names proved; independence proved for components with at least one input from inside the group; refuted for components with inputs from outside only and for finite-differenced child groups.
  Theorems: `C169_names`, `C169_scope_partial`, `C169_complete`, `C169_outside_refuted`, `C169_fd_group_refuted`.
* **C170** The subsystems of a ParallelGroup run in any order, and independent ones as in a Group — *partial*. `Props/ParRun`. Proof: `Model/ParRun`: trees of `Group`s and `ParallelGroup`s with the components, transfers and solvers of C167; a solver sees the vectors of its group. By induction over the tree, every system reads and writes its own components only (`solveP_local`, `applyP_local`). `C170_any_order`: permuted subsystems give the same run, residuals and solver result. `C170_before_run`, `C170_explicit`: what each subsystem computes. `C170_same_as_group_partial`: unconnected subsystems. `C170_runs`: `n` runs of components in order settle the first `n` of them. `C170_residuals_partial`: components directly in the group. Refutations: `C170_same_as_group_refuted`, `C170_residuals_refuted`.. Order independence and the values used are proved; equality with a Group is proved for unconnected subsystems and refuted for connected ones; residuals are proved for components directly in the ParallelGroup and refuted for connected sub-groups.
  Theorems: `C170_any_order`, `C170_before_run`, `C170_explicit`, `C170_same_as_group_partial`, `C170_runs`, `C170_residuals_partial`, `C170_same_as_group_refuted`, `C170_residuals_refuted`.
* **C171** A response surface is the quadratic function that fits its training data best — *proved*. `Props/RespTrain`. Proof: `Model/RespTrain`: the row of the regression matrix, written slice by slice, and `train` around any `lstsq` that minimizes the squares of the residuals (`Spec/RespTrain`; `lstsq_exists` shows that there is one over the real numbers). The loop is shown to write the same row as `predict` uses (`designRow_eq`); every quadratic function, given by a constant, a vector and any matrix, has a vector of coefficients and every vector of coefficients is a quadratic function (`dot_design`, `coefs_exists`). `C171_least_squares`, `C171_exact` (with uniqueness), `C171_trained` (C57 applies), `C171_again`.. 
  Theorems: `C171_least_squares`, `C171_exact`, `C171_trained`, `C171_again`.
* **C172** Every output of a MetaModel is predicted by its own surrogate, trained on the training data — *partial*. `Props/MetaLife`. Proof: `Model/MetaLife`: surrogates as objects with addresses, `_setup_variables`, the loops of `_train` and `solve_nonlinear` around any class of surrogates, and histories of events. For components whose outputs do not share a surrogate (`Separate`): `C172_setup`, `C172_train_run`, `C172_later_run`, `C172_failed_training`, `C172_bad_data`, `C172_missing`, and by induction over the history `C172_default_untouched`; `C172_default_partial` puts them together: whatever happened before, after setup each value comes from the untrained default surrogate trained once on the data of the first run. Refutations: `C172_changed_data_refuted`, `C172_shared_refuted`.. Proved for components whose outputs do not share a surrogate object. Changed training data do not cause a retraining (C172_changed_data_refuted); a shared surrogate predicts both outputs from the last training (C172_shared_refuted).
  Theorems: `C172_setup`, `C172_train_run`, `C172_later_run`, `C172_failed_training`, `C172_bad_data`, `C172_missing`, `C172_default_untouched`, `C172_default_partial`, `C172_changed_data_refuted`, `C172_shared_refuted`.
* **C173** The iterators over subsystems yield every system once, in execution order — *proved*. `Props/Subsys`. Proof: `Model/Subsys`: systems as trees of any depth, the iterator as the list of what it yields. `Spec/Subsys` gives every system a place, the list of positions on the way down (`Below`), and the names on the way (`PathTo`). By induction over the tree: `C173_subsystems` (exactly the systems of the type below the group, with places in strictly ascending dictionary order), `C173_split` (subgroups and components are the two parts of subsystems, in its order), `C173_pathnames` (no pathname twice when siblings have different names).. 
  Theorems: `C173_subsystems`, `C173_split`, `C173_pathnames`.
* **C174** Every component runs in its own directory, and the process comes back to where it was — *partial*. `Props/RunDir`. Proof: `Model/RunDir`: trees of systems with `directory` and `_dircontext`, the process with its working directory and the attribute `start` of each context, a run as the list of calls with their directories. `Spec/RunDir`: the way down to a component (`At`) and the directory it should run in (`dirOf`). By induction over the tree: `C174_run_partial`, `C174_stops` (nothing runs after an exception), `C174_runs` (without exceptions, every component below solvers that run their subsystems is solved), `C174_linearize`, `C174_residuals`, `C174_gradient_partial`. The property is false of the code: `C174_residuals_refuted` (apply_nonlinear enters no directory), `C174_newton_refuted` (a context entered twice forgets where it came from; with Newton in a group that has a directory the process stays there, and later components run there), `C174_gradient_refuted` (calc_gradient of a root with a directory leaves the process there), `C174_second_setup_refuted` (a directory set to the empty string is still entered after another setup).. Partial: residuals are evaluated outside the directory of the component, a context that is entered twice does not come back, and a directory taken away is still entered (four refutations).
  Theorems: `C174_run_partial`, `C174_linearize`, `C174_residuals`, `C174_gradient_partial`, `C174_stops`, `C174_residuals_refuted`, `C174_newton_refuted`, `C174_gradient_refuted`, `C174_second_setup_refuted`, `C174_runs`.
* **C175** An IndepVarComp declares exactly the variables it is given — *partial*. `Props/Ivc`. Proof: `Model/Ivc`: the elements by form, the loop with the variables kept from the element before, declarations from `Model/Declare`. `Spec/Ivc`: what an element asks for (`Says`), and when it is in order (`Good`). By induction over the list, with the invariant that the element before is declared: `C175_declared`, `C175_accepted`, `C175_single`, `C175_refused`, `C175_malformed_partial`. The property is false of the code: `C175_empty_tuple_refuted` (an empty tuple raises a NameError, or a RuntimeError about the element before), `C175_keywords_refuted` (keywords beside an iterable are silently dropped).. Partial: elements that count as false raise another error, keywords beside an iterable are dropped (two refutations).
  Theorems: `C175_declared`, `C175_accepted`, `C175_single`, `C175_malformed_partial`, `C175_refused`, `C175_empty_tuple_refuted`, `C175_keywords_refuted`.
* **C176** view_connections lists every parameter once, under its source, with the value it receives — *partial*. `Props/ViewConn`. Proof: `Model/ViewConn`: the loop over the parameters with the dictionary of rows and that of values, numpy indexing by rows. `Spec/ViewConn`: the entries a target receives (`Received`, flat indices). By induction over the list of parameters: `C176_rows`, `C176_once`, `C176_sources`, `C176_source_values`, `C176_values_partial`, `C176_made`. The property is false of the code: `C176_rows_taken_refuted` (indices into an array with two dimensions take rows, or raise an IndexError), `C176_scalar_refuted` (indices into a number raise an IndexError), `C176_subsystem_refuted` (a system with a parameter connected to something outside raises a KeyError), `C176_unconnected_refuted` (an unconnected parameter is shown with the value it was declared with).. Partial: indices into sources that are not arrays of one dimension, systems below the root, and the values of unconnected parameters (four refutations).
  Theorems: `C176_rows`, `C176_once`, `C176_sources`, `C176_source_values`, `C176_values_partial`, `C176_made`, `C176_rows_taken_refuted`, `C176_scalar_refuted`, `C176_subsystem_refuted`, `C176_unconnected_refuted`.
* **C177** build_directory makes what the dict asks for and leaves everything else alone — *proved*. `Props/BuildDir`. Proof: `Model/BuildDir`: the file system as a function of paths, the nested dict as a tree of any depth, exceptions with the file system they leave behind. `Spec/BuildDir`: files and directories asked for (`Leaf`, `Folder`). By induction over the tree: `C177_changes` (frame condition, also after an exception), `C177_kept`, `C177_built`, `C177_contents` (for paths that are asked for once and not also as a directory).. 
  Theorems: `C177_changes`, `C177_kept`, `C177_built`, `C177_contents`.
* **C178** Setup refuses a model in which derivatives are solved for in parallel against the mode of a group — *partial*. `Props/ParCheck`. Proof: `Model/ParCheck`: the tree of groups, the two loops over the variables of interest, the check, `_get_voi_key` and the vectors there are for its keys; `_mode` is `chooseMode` of `Model/Mode`. `Spec/ParCheck`: groups at any depth (`Below`), set to the other mode (`Against`), the variables seeded in a mode (`seeds`). By induction over the tree and the lists: `C178_reported_partial`, `C178_sound`, `C178_together_partial`, `C178_names`. The property is false of the code: `C178_option_refuted` (without `single_voi_relevance_reduction`, which is the default, the check is skipped, but groups of several variables are solved for together all the same).. false of the code as stated: the check is skipped without single_voi_relevance_reduction (C178_option_refuted); proved with the option
  Theorems: `C178_reported_partial`, `C178_sound`, `C178_together_partial`, `C178_names`, `C178_option_refuted`.
* **C179** A uniform study runs the number of samples asked for, inside the bounds, and a seed fixes them — *partial*. `Props/UniDoe`. Proof: `Model/UniDoe`: the runlist drawn case by case, with the state of the generator and what the model does to it between the cases. `Spec/UniDoe`: a case that fits the design variables (`UniFits`). By induction over entries, variables and cases: `C179_number` (with the case of an array of bounds that is too short), `C179_fits`, `C179_seed`, `C179_models_partial`, `C179_prefix`. The property is false of the code: `C179_shared_refuted` (a model that draws random numbers changes the cases after it).. false of the code for models that draw random numbers themselves (C179_shared_refuted); proved for all others, and number, order and bounds of the samples for all models
  Theorems: `C179_number`, `C179_fits`, `C179_seed`, `C179_models_partial`, `C179_prefix`, `C179_shared_refuted`.
* **C180** print_all_convergence reaches every solver down to the depth asked for, and no other — *partial*. `Props/PrintConv`. Proof: `Model/PrintConv`: solvers as trees, groups as trees, the option `iprint` of every object as the state. `Spec/PrintConv`: solvers inside a solver (`Has`), solvers of a group at a level (`Owns`). By induction over both trees: `C180_all_partial`, `C180_only` (frame condition), `C180_refused`. The property is false of the code: `C180_newton_refuted` (the class Newton has the method twice; the second definition, which counts, does not pass the call on to the solvers inside its linear solver).. false of the code for solvers inside the linear solver of a Newton (C180_newton_refuted); proved for all others
  Theorems: `C180_all_partial`, `C180_only`, `C180_refused`, `C180_newton_refuted`.
* **C181** check_setup of an external code finds what would keep it from starting — *partial*. `Props/ExtCheck`. Proof: `Model/ExtCheck`: the report as a list of its parts, and `solve_nonlinear` up to the start of the process; the operating system is that of `Model/External` (C107), and `C181_solve` ties the two models together. `C181_command_partial`, `C181_files`, `C181_agree_partial` by cases over the command. The property is false of the code: `C181_string_refuted` and `C181_string_missed_refuted` (a command that is a string is allowed by `_execute_local`, but the check takes its first character for the program).. false of the code for commands that are strings (C181_string_refuted, C181_string_missed_refuted); proved for lists
  Theorems: `C181_command_partial`, `C181_files`, `C181_agree_partial`, `C181_solve`, `C181_string_refuted`, `C181_string_missed_refuted`.
* **C182** A system in a sub-problem has its directory below that of the sub-problem — *partial*. `Props/SubDir`. Proof: `Model/SubDir`: trees of groups, components and sub-problems, `absdir` and the `_parent_dir` of each problem as the state, a list of calls of `setup`. `Spec/SubDir`: the way down to a component and its directory (`nestedDir`). `C182_after_partial` by induction over the number of setups, with the invariant that everything below fewer than n sub-problems is right after n setups; `C182_plain` for components in no sub-problem; `C182_first` says exactly which directory the first setup gives. The property is false of the code: `C182_first_refuted` (a sub-problem sets up its problem before it hands down its directory, so the first setup uses the working directory of the process; the second one is right for one level).. false of the code after the first setup for components in sub-problems (C182_first_refuted); proved for components below k sub-problems after more than k setups
  Theorems: `C182_after_partial`, `C182_plain`, `C182_first_refuted`, `C182_first`.
* **C183** Co-kriging accepts correlation parameters only with bounds that fit — *partial*. `Props/CkParams`. Proof: `Model/CkParams`: the checks of one level in the order of the code, with broadcasting of single numbers, and of all levels. `Spec/CkParams`: which values are to be used (`Uses`) and when they are sound (`Sound`). `C183_accepted_partial` (an equivalence), `C183_single` (an equivalence for one start value that stands for all inputs), `C183_levels`, `C183_refused`. The property is false of the code: `C183_length_refuted` (bounds that are filled in have one entry per input, whatever the number of start values). `finding_start_outside`: a start value outside of its bounds is accepted.. false of the code for several start values of another number than the inputs without both bounds (C183_length_refuted); proved for all other arguments (C183_accepted_partial), and for one start value that stands for all inputs (C183_single)
  Theorems: `C183_single`, `C183_accepted_partial`, `C183_refused`, `C183_levels`, `C183_length_refuted`.
* **C184** After setup the directories that a model needs are there — *partial*. `Props/MakeDirs`. Proof: `Model/MakeDirs`: the file system as a function of paths, changed by a walk over the tree of systems. `Spec/MakeDirs`: which directories a model needs (`Needs`) and what may change (`GrowsBy`). By induction over the tree: `C184_made_partial`, `C184_only` (frame condition); `C184_refused` for a component without create_dirs. The property is false of the code: `C184_file_refuted` (os.path.exists is also true of a file in place of the directory; the run then fails).. false of the code if there is a file in place of the directory (C184_file_refuted); proved otherwise
  Theorems: `C184_made_partial`, `C184_only`, `C184_refused`, `C184_file_refuted`.
* **C185** Cleanup closes the recorders of a problem — *partial*. `Props/Cleanup`. Proof: `Model/Cleanup`: the walk over groups, sub-problems and their solvers; the state says which recorders are closed. `Spec/Cleanup`: which recorders are in a model, with or without solvers inside solvers (`CloseTree.Has`). By induction over the tree: `C185_closed_partial` (exactly these are closed), `C185_only`, `C185_again`, and `C185_started`: with `_start_recorders` modelled too, the recorders closed are exactly those that setup started, so one that stays open was never started. The property is false of the code: `C185_inner_refuted` (the recorder of a line search, of a linear solver given to Newton, or of a preconditioner stays open).. false of the code for recorders of solvers inside solvers (C185_inner_refuted); proved for drivers, solvers of groups and sub-problems
  Theorems: `C185_closed_partial`, `C185_again`, `C185_only`, `C185_started`, `C185_inner_refuted`.
* **C186** The total time of a profile is the time during which profiling was on — *proved*. `Props/ProfClock`. Proof: `Model/ProfClock`: `start`, `stop` and the total at exit, with the times of the calls as inputs. `Spec/ProfClock`: `timeOn`, which looks at each call and the time of the next one and keeps no state. `C186_total` by induction over the calls, generalized over the state; `C186_bounds` for times in order.. 
  Theorems: `C186_total`, `C186_bounds`.
* **C187** The profiler wraps each listed method of each object of a problem once — *partial*. `Props/ProfWrap`. Proof: `Model/ProfWrap`: `_obj_iter` and `wrap_methods`; the state counts the wrappers of each method of each object. `Spec/ProfWrap`: in how many places of the model an object stands. By induction over the tree and the loops: `C187_wraps_partial` (one wrapper for each place), `C187_only`. The property is false of the code: `C187_shared_refuted` (a solver that two groups share is wrapped twice).. false of the code for an object that stands in more than one place (C187_shared_refuted); proved for objects in one place
  Theorems: `C187_wraps_partial`, `C187_only`, `C187_shared_refuted`.
* **C188** The groups of a parallel design study get as many processes as the model needs — *partial*. `Props/DoeProcs`. Proof: `Model/DoeProcs`: the requirements of the driver, the check of the problem and the sizes of the groups. `Spec/DoeProcs`: which groups run cases. `C188_enough` (with and without load balancing), `C188_most_partial` (without), `C188_balance_partial` (with load balancing the upper limit holds if and only if the processes without the master are within it), `C188_refused`, by arithmetic of the quotient and the remainder on top of `evenlyDistribIdxs_eq`. The property is false of the code: `C188_balance_refuted` (the master takes one process, but the limit counts it as a whole group, so a group may get more than the root can use).. false of the code for the upper limit with load balancing (C188_balance_refuted); proved without it, and the lower limit with and without
  Theorems: `C188_enough`, `C188_most_partial`, `C188_balance_partial`, `C188_refused`, `C188_balance_refuted`.

## Disagreements between code and properties

Each item is a theorem about the model of the existing code (`…_refuted`, witness included).

* C10: dividing a number by a unit with an offset is not refused (`units.py`, `__rdiv__`).
* C11: `conversion_factor_to` refuses only if offset *and* factor differ (`and` for `or`, `units.py:501-527`).
* C13: creating any `OptionsDictionary` unlocks all of them (class attribute); a locked option can be removed and added again.
* C14: `get` through a deprecated name is a KeyError; assigning a derivative option through a deprecated name skips its side effects.
* C16: groups of connected inputs with two roots, cycles of inputs, and inputs behind an input that has a source are not all reported as unconnected.
* C17 (finding): `set_order` does not reorder `_local_subsystems`.
* C20: index subsets of 2-D design variables do not round trip (read flat, written by rows).
* C21: a negative scaler leaves lower and upper bound unexchanged.
* C22: setting element 0 of a design variable overwrites the whole variable (truth value of the index).
* C25: infinite initial residual counts as convergence; convergence in the last permitted sweep counts as failure; `maxiter=1` never fails; `maxiter=0` still runs the model.
* C26: infinite initial residual counts as convergence; an exception in an iteration leaves the derivative type of the group at `'user'`.
* C27: with an infinite norm before the step every step is accepted.
* C28: bounds of a variable declared with `pass_by_obj=False` are ignored.
* C30: outputs passed by object are changed by residual evaluation; outputs are disturbed by rounding and when the component raises.
* C33: forward linear Gauss–Seidel has other fixed points for implicit components and subgroups; `rtol` is not relative; `atol ≥ 1` stops at once; late convergence counts as failure.
* C34: a variable requested both as input and as output overwrites its slice of the array format.
* C35: parameters inside a differenced group keep perturbed values; values are restored by adding and subtracting (rounding); stale residuals enter one-sided differences; a passed-through `[[1.0]]` block is misplaced; negative relative steps.
* C36: unknowns that are perturbed inputs lose columns in parallel; too few ranks lose columns.
* C38: `perturb` exchanges entries of the original design, so designs need not stay Latin; with one sample it never ends.
* C39: groups of several processes with unequal numbers of cases hang.
* C40: with one worker only the first case is evaluated.
* C41: without load balancing, a worker that had a fatal error drops cases and the main process waits for ever.
* C43: runs inside finite differences repeat their keys.
* C44: systems at depth two or more with an iterative solver are looked up under a wrong path name (KeyError).
* C45: a recorder shared by systems of different sizes writes rows that do not match the header; derivatives before the first iteration raise IndexError.
* C46: derivatives read back are not in the documented attribute `derivs` of a case (always None).
* C47: the column index does not advance after array or integer training data, so the next parameter overwrites it.
* C48: empty data without warm restart reuses old outputs; a failed training with warm restart leaves unfinished rows.
* C49 (finding): rows before the first line wrap around to the end.
* C50: backward search with an anchor set skips the last line; text behind the anchor on the same line is not found.
* C51: minimum requirements are ignored when all requests fit; left over processes can loop forever (requests (3,3), (3,3), four processes); an empty parallel group is a NameError.
* C52: a design variable that is also a response loses entries; unconnected states of implicit components are dropped; the root is never a relevant system.
* C53: a parameter passed by object on an ordinary source overlaps its neighbour; an objective that is also a constraint in a parallel set is a KeyError.
* C54: two params with one source, `src_indices`, unit conversion, a missing partial of a state, a param fed by its own component: the assembled matrix differs from the matrix-free product; a source outside of the group is a KeyError.
* C55: a declaration rejected because of `low`/`high` has already been noted as passed by object; the key `'unit'` is checked instead of `'units'`.
* C56: with equal shapes the number of indices is not checked; a source with `pass_by_obj=False` is not checked; empty indices raise ValueError.
* C57 (finding): `predict` accepts a point with too few entries.
* C58: `solve_linear` uses the factorisation of the last nonlinear solve even if A changed; before the first solve it is a TypeError.
* C59: entries nobody lists as missing keep different values on different processes.
* C63: a zero step gives factor −∞ and value NaN.
* C65: an array that exactly fills its fields adds a blank line.
* C66 (finding): a source's own path is not compared with the files of the parameters.
* C68: the parameter vector counts the `src_indices` of parameters fed by a pass-by-object source, the index arrays do not: other parameters are then written at the wrong place. The number of `src_indices` is not checked when source and parameter have equal shapes; surplus entries overwrite the next parameter. A parameter declared pass-by-object with a vector source ends setup with a KeyError.
* C70: a number with an exponent (`y=1e3*x`) declares a parameter `e3`; slice bounds and keyword arguments of calls become variables (findings).
* C71: `a:b:c` and `a:b0c` are both replaced by `a0b0c`; if one colon name occurs inside another the result depends on the order of a set.
* C72: where a statement broadcasts into an array output (`y=sum(x)`, `y` of size 3) the Jacobian has one row only.
* C73: a solve in the other mode without a linearization in between uses the untransposed matrix. Changing `solve_method` uses an old factorisation; two direct solvers of one system share one flag (findings).
* C74: with three or more levels training asks for `x_fi2_fi3` (the loop reassigns the name) and fails; array data followed by another parameter are overwritten as in MetaModel (C47). A level without cases gives its surrogates `None` (finding).
* C75: holds. `a <= b >= c` is accepted and becomes `c-(a <= b)`; `x => 3` becomes a text that is no expression (findings).
* C76: with one input and `comp=1` the derivative table has the wrong sign; for `comp=-3` it has `T/sqrt(T*T*1.)`, which is 1, for `T/sqrt(T*T+1.)`.
* C77: at training points the gradient is not a number although the prediction has derivative zero there; after a prediction with another number of neighbours at the same point the gradient is for that number (the cache ignores `n`).
* C78: with one input and several outputs the gradient is a `ValueError` (`squeeze` drops the wrong axis).
* C80: the prediction is never exactly the training value for `0 -> 0, 2 -> 2`, with any nugget, 0 included: the singular values are always regularized by `1e-8 S[0]`. The root mean square error at the training points is bounded.
* C82: `sigma2` sums the products of all outputs with each output, so with two outputs of which one falls as the other rises the error is zero everywhere; the likelihood is then the logarithm of zero (finding).
* C83: the correlations are stored with the number type of the point: at integer points other than training points every prediction is the mean of the training values. A failed training (`ValueError` of the optimizer) leaves new means with old weights, and `predict` answers.
* C84: a parameter with a unit conversion is stepped without it, so the code runs at the value in source units and the factor is missing. `unknowns['y'] = params['x']` gets a derivative of zero: the array that was read is a view of the stepped array, and the step is taken back before the result is read.
* C85: the complex step leaves zeros in the residuals of an explicit component (`apply_nonlinear` works on the real vectors). Newton copies the residuals after linearizing, so its right-hand side misses them.
* C86: a root at the lower bound is returned by `brentq`, but the solver does not use the returned value, and the last evaluation was at the upper bound: `Converged` is reported with the state variable at the upper bound.
* C88: every `RuntimeError` of a component during the search is taken for a failure to converge and is silent by default. The message for a missing `var_upper_bound` speaks of `var_lower_bound`. Bounds that come from variables are read before the initial run (finding_stale_bounds).
* C89, C90: the finite difference is an argument (C35, C84 are about it). With `compact_print` the column headed `r(fwd-rev)` has the relative error between forward and check. `rel error` has four entries instead of three when the finite difference is zero. Outputs that are not states are not perturbed: an `apply_linear` that reads them wrongly is not noticed.
* C92: `scipy.sparse.linalg.gmres` is a parameter; its promise (`GmresContract`) is a hypothesis of the residual bounds. The option `atol` is passed as scipy's `tol`, which is compared with the relative or the absolute residual.
* C94: in a group with `deriv_options['type']` `fd` or `cs` the `return` is inside the loop over the variables of interest (`group.py:938-941`): only the first one is solved for (`C94_fd_refuted`).
* C95: an input without a source keeps a reference to the array given by the user (`C95_input_is_copy_refuted`). Inputs that hang on two others are assigned only in part (`C95_two_roots_refuted`), inputs connected in a circle not at all (`C95_cycle_refuted`).
* C96: NaN as initial value of a single unconnected input is reported as a different initial value (`C96_nan_refuted`). The comment says units may differ if one is `None`; the code reports this case (`finding_none_units_reported`), except among inputs that hang on two others (`C96_two_roots_refuted`). The checks of step sizes and forms are not modelled.
* C97: an input connected to an output of the same component is used before it is set but is not reported, and the component is not rerun (`C97_self_connection_refuted`).
* C98: `_build_sparse` looks up absolute names of parameters in `rel.relevant`, which holds promoted names. A promoted parameter connected to the whole design variable is not seen, and columns are dropped whose derivatives are not zero (`C98_promoted_refuted`).
* C99: `_gradfunc` leaves `fail` at 0 when anything but an AnalysisError is raised, for instance the TypeError from an integer `active_tol` (`C99_gradient_failure_refuted`, `C100_tolerance_kinds`).
* C100: `_gradfunc` marks an entry as inactive if it is far from either bound, so two-sided constraints and violated equality constraints lose their gradient (`C100_two_sided_refuted`, `C100_equality_refuted`); `_calc_gradient_ln_solver` consults the last constraint of a parallel group only (`C100_group_refuted`).
* C101: the constant term of a linear constraint (including the one that `adder`s cause) is not handed to the optimizer (`C101_offset_refuted`).
* C104: `SubProblem.linearize` differentiates the root of the wrapped problem at fixed design variables. With an optimizing driver the derivative of an output that depends on the design is wrong (`C104_optimizer_refuted`: 0 instead of 1). Proved for drivers that keep the design and for outputs stationary in the design.
* SubProblem (not a claim): an exposed parameter that is an unconnected input of the wrapped problem cannot be differentiated, `calc_gradient` looks it up in `to_abs_uname` and raises KeyError; `linearize` passes that on. In the model this is a value of `grad`.
* C106: `FileRef._same_file` compares path strings. If source and target are one file under two names (for example `/w/x` and `/w/./x`), it is opened for writing, which empties it, before it is read: the data are lost without an error (`C106_alias_refuted`). Text files are read with universal newlines under python 3, so a copy of a file with `\r\n` differs (`C106_newline_refuted`).
* C107: output files are only checked for existence after the run, so files left by an earlier run hide that the program wrote nothing (`C107_stale_refuted`).
* C108: the timeout is documented as maximum time to wait; the code waits up to two poll delays longer (`finding_C108_timeout_exceeded`), and returns the exit code of a command that ends in that time.
* C110: from a relative start directory `find_up` stops before the current directory (`C110_relative_refuted`), since `dirname('sub')` is empty.
* C111: a SubProblem inside a group that is set up a second time fails with KeyError in `_check_solvers`, since its root then has the path of the component but only the empty path is in the table (`C111_second_setup_refuted`). A component connected to itself is no cycle for the check (`C111_self_feedback_refuted`).
* C113: the automatic order is stored by `set_order`, which marks the order as set by the user; a second setup after new connections keeps the old order (`C113_second_setup_refuted`).
* C114: a worker that raises a fatal error is not given new cases, but neither the master nor the worker raises (see C115).
* C115: (1) a process with a dummy case ignores the result of `any_proc_is_true` and waits in `gather` although the others have raised (`C115_fatal_with_dummies_refuted`); (2) with parallel recorders only, the process with a dummy calls a `gather` that no other process calls (`C115_parallel_recorder_refuted`); (3) with load balancing a fatal error is only printed (`C115_load_balanced_refuted`). The hang with several processes per group is C39.
* C116: (1) a design variable that is also an unknown of the request shifts all following rows of the array (`C116_overlap_refuted`); (2) an unknown listed twice is scaled twice in dict format (`C116_repeated_refuted`): pyOptSparseDriver lists the objectives and then the constraints, so a quantity that is both gets a wrong gradient with finite differences; (3) an independent variable that is connected to nothing is a KeyError (`C116_unconnected_refuted`).
* C117: (1) `-1e-05`, which InputFileGenerator itself writes for -1e-5 (format `%.16g`), is read as the integer -1 and the text `e-05`, and all later fields shift (`C117_negative_exponent_refuted`), because the token for numbers with exponent and without point has no sign; (2) `-Inf` is read as +inf (`C117_minus_inf_refuted`); (3) words that begin with a number or with `Inf`, `nan`, … are split into several fields (`C117_split_refuted`); (4) with the tab as only delimiter just the first field is found, because pyparsing expands tabs to blanks first (`C117_tab_refuted`).
* C118: backward search from an anchor counts its rows from the end of the file but adds them to the anchor, and so reads an unrelated line (`C118_anchored_refuted`); a missing key is not noticed either (`C118_backward_missing_refuted`).
* C119: transfer_2Darray with fieldend catches all exceptions of the assignment: short rows and rows with text become zeros, rows with one field are broadcast (`C119_short_row_refuted`, `C119_text_row_refuted`); rows behind the end of the file are zeros (`C119_missing_rows_refuted`). transfer_array does not cut the last row if the file is too short (`C119_short_file_refuted`).
* C120: with only a full-line comment character every other line is cut to its first word, because `line.split(None)` splits at white space (`C120_full_line_refuted`); blank lines raise IndexError (`C120_blank_line_refuted`).
* C121: (1) with a group of several variables and a root solver other than LinearGaussSeidel all members share one key; the solution for the last member is stored as derivative with respect to the first, the other blocks stay None (`C121_solver_refuted`); (2) requesting a part of a group is a KeyError (`C121_part_refuted`); (3) with `single_voi_relevance_reduction` the vectors exist for one mode only, so the other mode is a KeyError and check_total_derivatives, which runs both, fails (`C121_mode_refuted`).
* C122: the test for inactive rows uses the loop variable left over from the previous loop, the last member of the group: if that one is inactive, active constraints of the group get zero rows (`C122_inactive_group_refuted`); if it is active, inactive ones are solved for (`C122_inactive_solved_refuted`). A pattern without an entry for a requested unknown is a KeyError (`finding_sparsity_missing`).
* C123: prefixed units are stored in the library and can be prefixed again: `dam` is ten metres, but a tenth of an attometre after `am` was looked up (`C123_history_refuted`); `ccm` is not a unit until `cm` was looked up (`C123_valid_refuted`); a number with exponent is taken for a unit, so `1e3*km` is refused until `km` was looked up (`C123_number_refuted`).
* C124: `eval` with `__builtins__` set to None reports an unknown name by TypeError in python 3, but the retry loop only catches NameError, so that a definition before its base ends the import (`C124_python3_refuted`); units with an offset look their base up with `_find_unit`, which raises ValueError (`C124_offset_refuted`).
* C125: `m/m` has the name '1', which is not a unit (`C125_cancelled_refuted`); `2/degC*m` has the name `2*m/degC`, which raises TypeError (`C125_offset_refuted`).
* C126: one degree Celsius equals one Kelvin (`C126_eq_refuted`), zero degrees Celsius is less than one Kelvin (`C126_lt_refuted`), and 20 degrees Celsius in base units are 20 Kelvin; dimensionless quantities have no base units (`C126_base_refuted`).
* C127: a variable that is objective and constraint appears in two tuples, and in a set it makes `outputs_of_interest` (called by setup) raise KeyError (`C127_both_refuted`). A generator passed to parallel_derivs is used up by the first check, so that an empty set is added (`C127_iterator_refuted`).
* C128: arrays of scalers are applied along the wrong axis. In forward mode a column of the block is multiplied by the array of the design variable, in reverse mode a row by the array of the response, and by finite differences the rows by the array of the response: wrong values if the block is square, ValueError otherwise (`C128_fwd_refuted`, `C128_rev_refuted`, `C128_fd_refuted`). A variable that is objective and constraint gets the scaler and the indices of the other role (`C128_both_refuted`). C116 and C121 model numbers as scale factors.
* C130: `fd_jacobian` looks up the source of a param under its name relative to the group in a dictionary with absolute names (system.py:616). A source inside the group is therefore not found, the param is perturbed instead and overwritten by the next transfer, and the derivative is 0 (`C130_inner_refuted`). If the relative name is the absolute name of another param, KeyError or a perturbation of the wrong variable follows (`C130_clash_refuted`).
* C131: `Group.solve_linear` of a finite differenced group returns from inside the loop over the variables of interest (group.py:931-933), so all but the first variable of a parallel set get zero derivatives (`C131_fwd_refuted`, `C131_rev_refuted`).
* C132: `fit` keeps the parameters that the optimizer returned, but `beta`, `sigma2`, `C` and `G` of the last call of the likelihood that the optimizer happened to make (multifi_cokriging.py:420-435, 564-594). If that was another point the surrogate does not interpolate: `C132_optimizer_refuted`, where the value at a sample with output 1 is below 0.9.
* C133: `FloatMultiFiCoKrigingSurrogate.predict` reads `mu` of a tuple and always raises AttributeError (`finding_float`).
* C135: With `rho_regr='linear'` and `regr='constant'` the assumption on the regressions fails. Above the lowest level the process variance in the predicted error is half of the one at the lowest level (line 685), which does not change any of the theorems.
* C136: Constant outputs with a constant regression are refused with a plain Exception, as the logarithm of the variance is infinite. With a single level and too few samples the message of the exception itself fails with NameError (line 412).
* C137: `fit` stores the parameters it found in `self.theta`, where the next `fit` reads them as given: the second training never optimizes (`C137_frozen`, `C137_history_refuted`), and data with another number of levels are refused (`C137_levels`).
* C138: Line 724 compares the columns of a level with those of the level below for i > 1 only, so levels 0 and 1 may differ (`C138_lowest_refuted`).
* C132 to C138: scipy is a record of functions (`CkLib`); the theorems assume that `cholesky` and `qr` are exact (`CkLib.Exact`), that such functions exist is `exactLib_exact`. Nothing is assumed of the optimizer.
* C139: a float that is written as `-1e-05` comes back as the integer -1 (`C139_exponent_refuted`); a string with `!` is lost, a quote ends it; of a list of strings or truth values only the first is read; an array of one element becomes a number and a 2-D array of one row 1-D; a name with an underscore cannot be read and the name of a group ends at the underscore; without a title a free-form line becomes the title; a comment with a final slash ends the group; nan cannot be written; after `FileParser` was given the comma as delimiter arrays lose all but their first number (`C139_…_refuted`). `C139_roundtrip_partial` is about everything else.
* C140: before setup a number for an array param is not made an array (`C140_before_setup_refuted`), since the metadata and not the value is tested. If two containers have the variable, only the last one gets it (`finding_two_containers`).
* C141: with two groups of one name only the first is searched (`C141_second_refuted`).
* C142: a repeat count of zero is read as a number (`finding_repeat_zero`); a card whose name begins with `Inf` or `NaN`, behind another card, is read as a number of the other card and the rest of the line is dropped (`finding_inf_name`); a single number that goes on with two or more numbers on the next line is a ValueError (`finding_scalar_continued`).
* C144: indices select rows of a source of two dimensions, whereas everywhere else `src_indices` are indices into the flattened source: the value does not have the shape that is stored (`C144_rows_refuted`), and an index past the number of rows is an IndexError although the entry exists (`C144_two_dimensional_refuted`). A number cannot be a source with indices (`C144_number_refuted`).
* C143: `connect` with a generator as src_indices: the check of the types uses it up (not modelled).
* C145: the time of the root is too small by the overheads of the functions called from outside, which were never part of their times (`C145_root_refuted`). The decorator does not restore the call stack when the function raises: later calls are listed under a caller that has ended (`finding_wrong_caller`), and a caught exception with profiled calls inside makes the data unreadable, KeyError (`C145_exception_refuted`). The time of a recursive function is counted at each level (`finding_recursion_twice`).
* C146: with several processes the rank is appended to the names with a point before it, and the grand totals take the text behind the last point: they are totals of the ranks, no longer of the methods (`C146_ranks_refuted`).
* C147: `list_connections(var='x')` looks for the name in the scope of every subsystem, so if both ends of a connection have this name, as is usual for promoted variables, the connection is listed twice (`C147_twice_refuted`).
* C148: `param.lstrip(name)` strips all leading characters that occur in the path instead of the path: in the system `sub` the param `bus.x` is printed as `x` (`C148_line_refuted`). The line of an unconnected promoted param ends with two parentheses (`C148_unconnected_line`).
* C152: the relevant variables have promoted names and the connections absolute names, so connections of promoted variables are not named; the names of the variables are then printed to the standard output instead of the given stream (`C152_report_refuted`).
* C153: a case read from an HDF5 file has no flag of success, no message, no time and no derivatives, whatever was recorded: the first three are attributes, which are not read, and the derivatives are in the group `Derivs`, but the reader looks for `Derivatives` (`C153_status_refuted`). Cases are numbered alphabetically, so that iteration 10 comes before 9 (`C153_order_refuted`). Running a problem twice with the same recorder raises ValueError at the first iteration of the second run (`C153_repeated`), where the SQLite recorder replaces the case (C46).
* C154: the recorder in memory keeps the arrays it is given, which are views of the vectors of the model. After a serial run, get_responses therefore shows the arrays of the last case for all cases (`C154_arrays_shared`, `C154_arrays_refuted`); the same holds for any use of `InMemoryRecorder` without MPI.
* C155: `fd_options['form'] = 'complex_step'` after `force_fd = True` gives complex step, in the other order finite differences (`C155_order_refuted`); the form then still reads as before, and `extra_check_partials_form` cannot be read at all (`C155_read_refuted`).
* C156: a scalar parameter of a component that runs in another process keeps a python number, over which `all(np.isfinite(…))` cannot iterate, so a TypeError hides the floating point error (`C156_remote_refuted`).
* C158: with a serial and a parallel recorder attached together the dictionaries exist after the gather in the first process only, so the parallel recorder writes nothing in the others, or fails (`C158_mixed_refuted`); a serial recorder on the solver of a group that does not run on the first of all processes is never called (`C158_subgroup_refuted`).
* C159: `"Iteration succeeded: %s\n" % 'yes' if … else 'no'` writes just `no` for a failed iteration, so its line reads `noError msg: …` (`C159_failed_refuted`); with several processes the file name `./dump` becomes `_0./dump`, in another directory (`C159_directory_refuted`).
* C160: on a problem that has not run, `check_total_derivatives(out_stream=None)` calls `None.write` and ends with an `AttributeError` (`C160_silent_refuted`).
* C161: `_get_lhc` compares `mmphi` of individuals with different `q`; since the criterion falls with `q`, the design for the largest `q` tends to be taken even if it is worse than the random design for smaller `q` (`C161_all_refuted`: five samples, two variables).
* C162: `Monitor.__call__` counts the initial residual as an iteration and `solve` compares that count with `maxiter` without asking PETSc for the reason: a solve that converges in `maxiter - 1` iterations is reported as FAILED (`C162_converged_refuted`), one that breaks down early as Converged (`C162_silent_refuted`), and with `maxiter` 1 every solve is FAILED (`finding_C162_maxiter_one`). A zero initial residual leaves the reference norm of an earlier solve (`C162_norms`).
* C163: all sends come before a barrier and all receives after it (`petsc_impl.py:451-466`); `comm.send` may wait for the receive when the pickled object is larger than MPI's buffer limit, and then no process ever passes the barrier (`C163_deadlock_refuted`). For objects that are buffered the transfer is correct in all interleavings.
* C164: the number of processes is accepted by looking at the root only. A parallel group divides its processes in turn, without regard to the minimum of its members, so a member can get less than it needs: the set-up raises on the processes of that member and not on the others. A parallel FD group with several parts inside a parallel group raises on every process that does not run it, since it asks for the size of `MPI.COMM_NULL`.
* C165: a process for which a parallel group has no use returns before its members are set up, so their variables are not marked as remote there; the process reads the initial values of variables computed elsewhere.
* C166: `alloc_jacobian` returns the cached dictionary if there is one, so entries set at an earlier point are not zero again (`C166_stale_refuted`: the derivative of a maximum of two params is [1, 1]). With finite differences and the option `linearize` it returns the dictionary of the finite differences, which a user's `linearize` then overwrites. The type of the derivatives is compared by `is not 'user'`: an equal string that is not the interned object selects finite differences. A one-dimensional array becomes a column also for a scalar unknown (`finding_C166_gradient_column`).
* C167: explicit components whose sources run before them are left out of the evaluation of residuals (`_run_apply`). That is wrong in three cases, in each of which a solver converges to a wrong answer with residuals of zero: a component connected to itself is not marked; Newton's method with `solve_subsystems` false changes the unknowns without running the components; Aitken's relaxation in a sub-group that stops at `maxiter` leaves relaxed unknowns behind.
* C168: LinearGaussSeidel compares names of the component with names of the group. (1) `_norm` leaves out the identity term of every output that is not promoted up to the group: the solver then reports failure although it has the solution (`C168_unpromoted_refuted`), or reports convergence with a wrong vector (`C168_wrong_convergence_refuted`). (2) An output in a subgroup whose local name is the name of a promoted output elsewhere gets an identity term in the sweeps, which then tend to a wrong vector (`C168_clash_refuted`). (3) `IndepVarComp` does not zero `du` in reverse mode, so that `_norm` adds the derivative itself and convergence is not reported (`C168_indep_refuted`). With the default `maxiter = 1` none of this matters (`C168_feed_forward`). `Model/LinearGS` (C32, C33) leaves the names out.
* C169: a component whose inputs all come from outside the group gets an empty list of relevant inputs, which `if rel_inputs` takes for no restriction; a child group that is finite-differenced does not get the list. In nested Newton solvers the values that the outer linear solve leaves in `dp` then enter the inner one.
* C170: connected subsystems of a ParallelGroup are run with the old outputs of each other, also without MPI, although the setup says that it makes it `just a serial Group`. A component in a sub-group whose source is in an earlier subsystem of the ParallelGroup is not marked for the evaluation of residuals, so that NLGaussSeidel finds zero residuals and stops with old values (`C170_residuals_refuted`).
* C170: a ParallelGroup calls `apply_nonlinear` of its components itself, so that the `resid_scaler` of their states is ignored, while their derivatives are scaled (`finding_C170_scaler`).
* C171: a training that fails (wrong number of responses) leaves the surface marked as trained; with coefficients from an earlier training it goes on predicting with them (`finding_C171_failed`).
* C172: the comment at `meta_model.py:65-68` says that the component retrains whenever the training data are changed. Nothing looks for a change: new data are used only after `train` is set to True or after `setup()` (`C172_changed_data_refuted`). One surrogate object given to two outputs is trained twice and predicts both from the second training (`C172_shared_refuted`).
* C173: takes `_local_subsystems` in the order of `_subsystems`. `set_order` after `setup` breaks this: it filters `_local_subsystems` and does not reorder it (see C19).
* C174: directories given as functions are taken as their value, paths are not normalized, `create_dirs` and the contexts entered by linear solvers, preconditioners and optimizing drivers are left out. Disagreement with the code: see the four refutations.
* C175: names are strings; the keywords of a declaration are those of C55. Disagreement with the code: empty tuples and false values are not noticed by `if badtup:`, keywords beside an iterable are dropped.
* C176: the text of the numbers, the order of the table and the lists of systems for the filters are left out. Disagreement with the code: see the four refutations.
* C177: keys consist of plain names, without `.` and `..` (`{'../x': …}` writes outside of the top directory); no links, no permissions; the warning about existing files is left out.
* C178: `_check_for_parallel_derivs` asks for `single_voi_relevance_reduction` **and** a group of several variables, `_get_voi_key` for one **or** the other; so with the default options no conflict is reported (`C178_option_refuted`). A finding beside it: a gradient in another mode than the one of setup, with a group of several variables, is a KeyError (`finding_other_mode`). Linear solvers without an option `mode` are left out.
* The log of wrong programs: an audit found that 26 of its entries named a definition other than the one edited (the text of the edit stands in two definitions, and the first one was changed). These entries now name what was edited and say so in their note; the edits that were meant have been run on their own definition and have their own entries. The tool now edits only inside the definition it names. Ten entries for `Model/ProfClock` in an earlier commit were listed as survivors although the module was not yet imported and so not built; the ten edits were run again with the module in the build, and these results replace them. The tool now refuses modules that are not in the build.
* C179: the runlist of `UniformDriver` is a generator on the random numbers of the whole process; with the same seed a model that draws random numbers is run with other samples (`C179_shared_refuted`). Exact arithmetic, so rounding at the upper bound is left out; exceptions of the model (C-properties of `SerialDoe`) and parallel studies are left out.
* C180: `Newton.print_all_convergence` is defined twice (`newton.py:101`, `newton.py:270`); the second definition sets the option of its linear solver only, so a preconditioner in it does not print (`C180_newton_refuted`). A negative depth and solvers of other classes are left out.
* C181: Windows and white space outside ASCII are left out; `C181_agree_partial` needs that no program with a blank name can be found. Disagreement with the code: for a command that is a string, `check_setup` looks for its first character (`external_code.py:118`), while `_execute_local` looks for the whole string (`external_code.py:189-190`).
* C182: only directories are modelled of a setup; simplifications as for C174. Disagreement with the code: `subproblem.py:152` calls `setup` of the inner problem before `subproblem.py:159` sets its `_parent_dir`, so a component below k sub-problems has its directory only after k + 1 setups (`C182_first_refuted`).
* C183: exact arithmetic, arguments of one row; of comparisons of arrays whose shapes do not fit it is taken that they raise a ValueError, as current numpy does. Checks of the regression models are left out. Disagreement with the code: `C183_length_refuted`.
* C184: paths are lists of parts without `..`; links, permissions, inactive systems and races are left out. Disagreement with the code: `system.py:485` and `component.py:457` accept a file in place of a directory (`C184_file_refuted`).
* C185: what closing does to a file, exceptions and components with a cleanup of their own are left out. Disagreement with the code: `solver_base.py:96-98` closes the recorders of the solver only and no solver with inner solvers overrides it (`C185_inner_refuted`).
* C186: times are elements of an ordered commutative group, so rounding is left out; the message of a second start is left out.
* C187: the class test and getattr are a given relation; sub-problems count as components, because `_obj_iter` does not enter them. Disagreement with the code: an object in two places is wrapped twice (`C187_shared_refuted`).
* C188: what the root needs is given; what it does with too many processes is left out, and so are negative numbers of groups. Disagreement with the code: `predeterminedruns_driver.py:205-212` does not know of the master (`C188_balance_refuted`). Finding: `num_par_doe=0` is corrected to 1 only after the check (`finding_zero_groups`).
