{"id": "C01", "title": "Step schedule stays between its end points", "statement": "For a Step schedule, every value returned by Scheduler.value(it) lies between init_value and target_value (inclusive), whichever of the two is larger.", "quantifier": "all real init/target values, all num_steps >= 0, all iters_max > 0 and all iterations it >= 0", "why_tests_cant": "the claim ranges over every real pair of end points and every iteration/step-count combination", "anchors": ["scikit-topt/sktopt/tools/scheduler.py: schedule_step, Scheduler.value"]}
{"id": "C02", "title": "Step schedule is monotone", "statement": "A Step schedule never moves away from its target: if init_value <= target_value then value(it) is non-decreasing in it, and if init_value >= target_value it is non-increasing, across the whole horizon including the jump to target at iters_max.", "quantifier": "all real init/target, all num_steps, iters_max > 0, all pairs of iterations 0 <= it1 <= it2", "why_tests_cant": "pairs of iterations over unbounded horizons cannot be enumerated", "anchors": ["scikit-topt/sktopt/tools/scheduler.py: schedule_step, Scheduler.value"]}
{"id": "C03", "title": "Every schedule type ends exactly at its target", "statement": "For every scheduler type, value(it) equals target_value for every it >= iters_max, and a stepped schedule (Step, StepAccelerating, StepDecelerating) with num_steps >= 2 and positive curvature already equals target_value throughout its whole last plateau it >= (num_steps-1)*iters_max/num_steps, and equals init_value throughout its first plateau it < iters_max/num_steps.", "quantifier": "all real parameters, all scheduler types, all iterations", "why_tests_cant": "ranges over all real parameters and all iterations", "anchors": ["scikit-topt/sktopt/tools/scheduler.py: Scheduler.value, schedule_step, schedule_step_accelerating, schedule_step_decelerating"]}
{"id": "C04", "title": "Step schedule plateaus are equally spaced and equally long", "statement": "With num_steps = n >= 2 a Step schedule takes exactly the n values init + k*(target-init)/(n-1), k = 0..n-1, and uses the k-th exactly for the iterations with k*iters_max/n <= it < (k+1)*iters_max/n.", "quantifier": "all n >= 2, all iters_max > 0, all it in [0, iters_max), all real end points", "why_tests_cant": "statement about all step counts and horizons", "anchors": ["scikit-topt/sktopt/tools/scheduler.py: schedule_step"]}
{"id": "C05", "title": "Accelerating and decelerating schedules bracket the linear one", "statement": "With curvature >= 1, a StepAccelerating schedule is never closer to the target than the Step schedule with the same parameters, a StepDecelerating schedule never further from it; with curvature = 1 all three coincide; both stay between init and target and are monotone for every curvature > 0.", "quantifier": "all real init/target, real curvature, num_steps, iters_max, it >= 0", "why_tests_cant": "real-valued curvature and unbounded horizons", "anchors": ["scikit-topt/sktopt/tools/scheduler.py: schedule_step_accelerating, schedule_step_decelerating"]}
{"id": "C06", "title": "Sawtooth schedule: bounded, resets each cycle, decays linearly inside a cycle", "statement": "A SawtoothDecay schedule with cycle length L = iters_max/num_steps stays between init_value and target_value for it >= 1, is L-periodic when L is a whole number, equals init_value at the first iteration of each cycle, and inside a cycle changes by the constant (target-init)/L per iteration.", "quantifier": "all real init/target, num_steps > 0, iters_max > 0, all 1 <= it < iters_max", "why_tests_cant": "all parameters and all iterations", "anchors": ["scikit-topt/sktopt/tools/scheduler.py: schedule_sawtooth_decay"]}
{"id": "C07", "title": "Sawtooth schedule reaches its target at the end of each cycle", "statement": "As documented (target_value is the 'value at the end of each sawtooth step'), on the last iteration of every cycle a SawtoothDecay schedule equals target_value.", "quantifier": "all real init != target, num_steps > 0, iters_max a multiple of num_steps", "why_tests_cant": "ranges over all cycles and parameters", "anchors": ["scikit-topt/sktopt/tools/scheduler.py: schedule_sawtooth_decay, SchedulerSawtoothDecay"]}
{"id": "C08", "title": "ToOne schedules are valid ratios", "statement": "A StepToOne, StepAcceleratingToOne or StepDeceleratingToOne scheduler built through the configuration API returns values in [1/num_steps, 1] at every iteration, starts at 1/num_steps and ends at 1, whatever init/target values the configuration carried.", "quantifier": "all num_steps > 0, curvature > 0, iters_max > 0, it >= 0", "why_tests_cant": "ranges over all step counts, curvatures and iterations", "anchors": ["scikit-topt/sktopt/tools/scheduler.py: SchedulerConfig.from_defaults, Scheduler.from_config, SchedulerStepToOne"]}
{"id": "C09", "title": "SchedulerConfig validation accepts exactly the complete configurations", "statement": "SchedulerConfig.from_defaults succeeds if and only if every parameter the chosen scheduler_type requires is present and consistent (documented table), and never silently changes a user-supplied required value; every configuration it accepts is accepted by Scheduler.from_config.", "quantifier": "all combinations of present/absent real parameters and all scheduler type strings", "why_tests_cant": "the input space is all optional-parameter combinations times all strings", "anchors": ["scikit-topt/sktopt/tools/scheduler.py: SchedulerConfig.from_defaults, Scheduler.from_config"]}
{"id": "C10", "title": "Rebuilding a scheduler from its configuration is idempotent", "statement": "Scheduler.from_config mutates the configuration it is given; building a second scheduler from the same configuration object yields the same scheduler (same value at every iteration) and leaves the configuration unchanged.", "quantifier": "all configurations, all iterations", "why_tests_cant": "quantifies over all configurations and histories of reuse", "anchors": ["scikit-topt/sktopt/tools/scheduler.py: Scheduler.from_config, Schedulers.add_object_from_config"]}
{"id": "C11", "title": "Schedulers collection behaves like a last-write-wins map", "statement": "Schedulers.values_as_list(it, order) returns, for each requested name, the value at it of the scheduler registered last under that name, in the order requested, and raises KeyError exactly when some name was never registered; registering a scheduler under another name never changes it.", "quantifier": "all sequences of registrations and all queries", "why_tests_cant": "all operation histories", "anchors": ["scikit-topt/sktopt/tools/scheduler.py: Schedulers"]}
{"id": "C12", "title": "Exponential schedules interpolate monotonically between their end points", "statement": "schedule_exp_slowdown returns init_value at it=0, target_value at it=total and is monotone and bounded by the two in between; schedule_exp_accelerate is monotone, reaches target_value at it=total, and at it=0 is within exp(-rate) of init_value relatively but not equal to it.", "quantifier": "all real init/target, rate > 0, total > 0, 0 <= it <= total", "why_tests_cant": "real parameters", "anchors": ["scikit-topt/sktopt/tools/scheduler.py: schedule_exp_slowdown, schedule_exp_accelerate"]}
{"id": "C13", "title": "OC update respects the density box", "statement": "Every design density produced by the OC bisection lies in [rho_min, rho_max], whatever the sensitivities, multiplier history, filter and projection are.", "quantifier": "all density vectors already in the box, all sensitivities, all bisection histories, arbitrary filter/projection functions", "why_tests_cant": "must hold for every input vector and every number of bisection steps", "anchors": ["scikit-topt/sktopt/core/optimizers/oc.py: bisection_with_physical_volume"]}
{"id": "C14", "title": "OC update respects the move limit", "statement": "No design density changes by more than move_limit in one OC update.", "quantifier": "all inputs as for the density box", "why_tests_cant": "must hold for every input vector and every bisection history", "anchors": ["scikit-topt/sktopt/core/optimizers/oc.py: bisection_with_physical_volume"]}
{"id": "C15", "title": "OC bisection terminates and its multiplier stays in the bracket", "statement": "The bisection performs at most max_iter iterations, always returns, the returned multiplier lies in [l1, l2], and the bracket is halved at every step so it stops after at most ceil(log2((l2-l1)/tol)) halvings.", "quantifier": "all inputs with l1 <= l2", "why_tests_cant": "termination for all inputs", "anchors": ["scikit-topt/sktopt/core/optimizers/oc.py: bisection_with_physical_volume"]}
{"id": "C16", "title": "OC bisection finds the volume-feasible multiplier when one is bracketed", "statement": "If the physical volume of the candidate is a non-increasing function of the multiplier and the target volume is attained inside the initial bracket, then at every step the bracket still contains a feasible multiplier, so the returned multiplier is within tolerance of a feasible one or its volume error is below vol_tol (or the iteration cap was hit). If no multiplier of the bracket is feasible, the update ends within tolerance of the end of the bracket that comes closest to the target.", "quantifier": "all monotone candidate-volume functions and all brackets", "why_tests_cant": "all inputs; loop invariant", "anchors": ["scikit-topt/sktopt/core/optimizers/oc.py: bisection_with_physical_volume"]}
{"id": "C17", "title": "OC reports the volume error of the design it returns", "statement": "The volume error and multiplier returned by the OC bisection (and recorded in the histories) are those of the very density vector it returns.", "quantifier": "all inputs and bisection histories", "why_tests_cant": "off-by-one-iteration staleness shows only on some histories", "anchors": ["scikit-topt/sktopt/core/optimizers/oc.py: bisection_with_physical_volume, OC_Optimizer.rho_update"]}
{"id": "C18", "title": "The OC scaling is monotone: a larger multiplier never adds material", "statement": "For non-positive sensitivities, the unfiltered OC candidate density of every element is a non-increasing function of the Lagrange multiplier, so with an order-preserving filter and projection the physical volume is non-increasing too.", "quantifier": "all densities, sensitivities <= 0, multipliers 0 <= l <= l', order-preserving filters", "why_tests_cant": "real-valued inputs, universally quantified", "anchors": ["scikit-topt/sktopt/core/optimizers/oc.py: bisection_with_physical_volume"]}
{"id": "C19", "title": "LogMOC update respects box and move limit", "statement": "Every density produced by the LogMOC update lies in [rho_min, rho_max] and differs from the previous one by at most move_limit.", "quantifier": "all densities in [rho_min, rho_max] with rho_min > 0, all gradients, all step sizes, all move limits > 0", "why_tests_cant": "exponential/logarithmic update over all real vectors", "anchors": ["scikit-topt/sktopt/core/optimizers/logmoc.py: lagrangian_log_update"]}
{"id": "C20", "title": "LogMOC update is a descent step", "statement": "A LogMOC update never increases a density whose Lagrangian derivative is positive and never decreases one whose derivative is negative; a zero derivative leaves an in-box density unchanged.", "quantifier": "all densities in the box, gradients, step sizes eta >= 0", "why_tests_cant": "all real inputs", "anchors": ["scikit-topt/sktopt/core/optimizers/logmoc.py: lagrangian_log_update"]}
{"id": "C21", "title": "LogMOC multiplier is always inside its configured range", "statement": "The volume multiplier used in every LogMOC iteration lies in [lambda_lower, lambda_upper], for every history of volume errors, and the configured initial multiplier lambda_v determines the first one.", "quantifier": "all volume-error histories", "why_tests_cant": "all histories", "anchors": ["scikit-topt/sktopt/core/optimizers/logmoc.py: LogMOC_Optimizer.rho_update"]}
{"id": "C22", "title": "Heaviside projection maps [0,1] into [0,1] and is monotone", "statement": "heaviside_projection is strictly increasing in the density and maps [0,1] into [0,1], for every sharpness beta > 0 and threshold eta in [0,1].", "quantifier": "all real rho in [0,1], beta > 0, eta in [0,1]", "why_tests_cant": "real-valued inputs", "anchors": ["scikit-topt/sktopt/core/projection.py: heaviside_projection"]}
{"id": "C23", "title": "heaviside_projection_derivative is the derivative of heaviside_projection", "statement": "The derivative routine equals the true derivative of the projection with respect to the density (the sensitivity chain rule relies on it), and the in-place variants compute the same function.", "quantifier": "all real rho, beta > 0, eta in [0,1]", "why_tests_cant": "derivative identity at all real points; finite differences only approximate", "anchors": ["scikit-topt/sktopt/core/projection.py: heaviside_projection_derivative, heaviside_projection_inplace, heaviside_projection_derivative_inplace"]}
{"id": "C24", "title": "SIMP modulus stays between E_min and E_0 and is monotone in density", "statement": "simp_interpolation returns values in [E_min, E_0] for densities in [0,1], is non-decreasing in the density, equals E_0 at full density, and a larger penalty never raises it.", "quantifier": "all rho in [0,1], p > 0, 0 <= E_min <= E_0", "why_tests_cant": "real-valued inputs", "anchors": ["scikit-topt/sktopt/fea/composer.py: simp_interpolation", "scikit-topt/sktopt/core/derivatives.py: _E_simp"]}
{"id": "C25", "title": "SIMP sensitivity is the true derivative of the modulus", "statement": "dE_drho_simp is the derivative of the SIMP modulus with respect to the density, for densities above the 1e-6 floor, and the compliance sensitivity built from it has the sign that adding material never increases predicted compliance.", "quantifier": "all rho > 1e-6, p >= 1, E_min <= E_0, strain energies >= 0", "why_tests_cant": "derivative identity at all points", "anchors": ["scikit-topt/sktopt/core/derivatives.py: dE_drho_simp, dC_drho_simp"]}
{"id": "C26", "title": "RAMP modulus and its sensitivity are consistent", "statement": "The derivative routine used with RAMP interpolation is the derivative of the RAMP modulus used in the analysis, so it is non-negative and adding material never increases predicted compliance.", "quantifier": "all rho in [0,1], p >= 0, E_min <= E_0", "why_tests_cant": "derivative identity at all points", "anchors": ["scikit-topt/sktopt/core/derivatives.py: dE_drho_ramp, dC_drho_ramp", "scikit-topt/sktopt/fea/composer.py: ramp_interpolation"]}
{"id": "C27", "title": "Spatial density filter is an averaging operator", "statement": "SpacialFilter.forward preserves constant fields, keeps every filtered density between the smallest and largest input density, is linear and order-preserving, and leaves non-design elements untouched.", "quantifier": "all meshes (finite point sets), all radii > 0, all density vectors, all design masks", "why_tests_cant": "all meshes and vectors", "anchors": ["scikit-topt/sktopt/filters/spacial.py: build_filter_matrix, SpacialFilter"]}
{"id": "C28", "title": "Spatial filter gradient is the exact adjoint of its forward map", "statement": "For every sensitivity v and perturbation d supported on the design elements, <gradient(v), d> = <v, forward(x+d) - forward(x)>: SpacialFilter.gradient is the adjoint of forward on the design subspace.", "quantifier": "all meshes, vectors, design masks", "why_tests_cant": "bilinear identity over all vectors", "anchors": ["scikit-topt/sktopt/filters/spacial.py: SpacialFilter.forward, SpacialFilter.gradient"]}
{"id": "C29", "title": "Helmholtz element filter obeys the discrete maximum principle", "statement": "Any exact solution of the element-based Helmholtz filter system lies between the smallest and largest input density, reproduces constant fields exactly, and preserves the volume integral of the density.", "quantifier": "all meshes with positive volumes, all radii, all densities", "why_tests_cant": "all meshes and vectors", "anchors": ["scikit-topt/sktopt/filters/helmholtz_filter_element.py: compute_filter_radius_laplacian / HelmholtzFilterElement"]}
{"id": "C30", "title": "Helmholtz element filter uses the radius it is given", "statement": "The smoothing operator of the element-based Helmholtz filter is V + r^2 L with L independent of r (the Helmholtz equation -r^2 lap(x)+x = rho the class documents).", "quantifier": "all radii and meshes", "why_tests_cant": "quantifies over all radii and meshes", "anchors": ["scikit-topt/sktopt/filters/helmholtz_filter_element.py"]}
{"id": "C31", "title": "Helmholtz element filter gradient is the adjoint of its forward map", "statement": "gradient is the adjoint (transpose) of forward for the Helmholtz element filter.", "quantifier": "all meshes with positive element volumes", "why_tests_cant": "bilinear identity", "anchors": ["scikit-topt/sktopt/filters/helmholtz_filter_element.py: gradient"]}
{"id": "C32", "title": "Helmholtz nodal filter transfers are averages", "statement": "Both transfer operators of the nodal Helmholtz filter (element-to-node and node-to-element) preserve constants and stay within the range of their inputs; the filter's gradient output is never positive.", "quantifier": "all meshes in which every node belongs to an element, positive volumes, all vectors", "why_tests_cant": "all meshes", "anchors": ["scikit-topt/sktopt/filters/helmholtz_filter_nodal.py"]}
{"id": "C33", "title": "Splitting a run into steps does not change its result", "statement": "Running optimize_steps with any sequence of positive step counts adding up to at least the remaining iterations gives the same final densities, histories and next iteration as a single optimize() call.", "quantifier": "all max_iters, all partitions into chunks, arbitrary per-iteration update and convergence behaviour", "why_tests_cant": "all schedules of calls", "anchors": ["scikit-topt/sktopt/core/optimizers/common_density.py: DensityMethod.optimize, optimize_steps, _optimize_impl"]}
{"id": "C34", "title": "A completed run is inert", "statement": "Once a run has completed (converged or reached max_iters), further optimize/optimize_steps calls change neither densities nor histories nor the iteration counter; optimize_steps with a non-positive count never changes anything.", "quantifier": "all histories of calls", "why_tests_cant": "all histories", "anchors": ["scikit-topt/sktopt/core/optimizers/common_density.py: optimize_steps, _optimize_impl, _ensure_state_initialized"]}
{"id": "C35", "title": "Iteration numbers are consecutive and never exceed max_iters", "statement": "The iterations executed over the life of an optimizer are consecutive, start at 1 (or restart_from+1), each is executed once, none exceeds max_iters, and a chunk executes at most the requested number.", "quantifier": "all histories of calls", "why_tests_cant": "all histories", "anchors": ["scikit-topt/sktopt/core/optimizers/common_density.py: _optimize_impl"]}
{"id": "C36", "title": "Loaded elements keep density 1 throughout", "statement": "After initialisation and after every iteration every element carrying a load (and, when Dirichlet elements are excluded from design, every such element) has density exactly 1, and non-design elements are never changed by an update.", "quantifier": "all iterations, all update rules", "why_tests_cant": "all histories and updates", "anchors": ["scikit-topt/sktopt/core/optimizers/common_density.py: initialize_density, _optimize_impl"]}
{"id": "C37", "title": "The last executed iteration is always saved", "statement": "After any completed call that executed at least one iteration, the snapshot directory contains the density of the last executed iteration, and the saved snapshots of a single full run are a subset of those of any stepwise run.", "quantifier": "all max_iters, record_times, chunkings, convergence points", "why_tests_cant": "all schedules", "anchors": ["scikit-topt/sktopt/core/optimizers/common_density.py: _optimize_impl"]}
{"id": "C38", "title": "A recording frequency larger than the iteration count is harmless", "statement": "For every record_times >= 1 and max_iters >= 1 a run completes all its iterations without raising because of the recording interval.", "quantifier": "all record_times, max_iters", "why_tests_cant": "all pairs of configuration values", "anchors": ["scikit-topt/sktopt/core/optimizers/common_density.py: _optimize_impl"]}
{"id": "C39", "title": "Restart resumes from the newest snapshot", "statement": "find_latest_iter_file returns the snapshot with the largest iteration number present in the directory, and a restart continues at that number plus one; snapshot file names are injective in the iteration number.", "quantifier": "all directory contents, all iteration numbers", "why_tests_cant": "all directory contents", "anchors": ["scikit-topt/sktopt/core/misc.py: find_latest_iter_file", "scikit-topt/sktopt/core/optimizers/common_density.py: initialize_density"]}
{"id": "C40", "title": "A restarted OC run continues like an uninterrupted one", "statement": "Restarting an OC run from the snapshot of iteration k reproduces the densities the uninterrupted run would have produced at iterations k+1, k+2, ...", "quantifier": "all k, all problems", "why_tests_cant": "all crash points", "anchors": ["scikit-topt/sktopt/core/optimizers/oc.py: OC_Optimizer.rho_update", "scikit-topt/sktopt/core/optimizers/common_density.py: initialize_density"]}
{"id": "C41", "title": "Task construction partitions the elements", "statement": "After building a task, design and fixed elements are disjoint and together cover all elements, no loaded element is a design element when loads are excluded from design, and construction fails exactly when no design element is left.", "quantifier": "all element index arrays", "why_tests_cant": "all finite index sets", "anchors": ["scikit-topt/sktopt/mesh/task_common.py: FEMDomain.from_nodes, setdiff1d"]}
{"id": "C42", "title": "Mesh queries return exactly the matching elements", "statement": "get_elements_by_nodes returns exactly, without duplicates and in increasing order, the elements touching one of the given nodes; get_adjacent_elements returns exactly the elements sharing a node with the given ones that are not themselves given; the fast variants agree with the slow ones.", "quantifier": "all meshes and query sets", "why_tests_cant": "all meshes", "anchors": ["scikit-topt/sktopt/mesh/utils.py"]}
{"id": "C43", "title": "Orientation repair makes every tetrahedron positive", "statement": "After fix_tetrahedron_orientation every tetrahedron has non-negative signed volume, keeps its vertex set, and a second application changes nothing.", "quantifier": "all meshes", "why_tests_cant": "all coordinates", "anchors": ["scikit-topt/sktopt/mesh/utils.py: fix_tetrahedron_orientation"]}
{"id": "C44", "title": "Hexahedron volumes are correct", "statement": "The element volume computed for a hexahedral element that is a parallelepiped is its geometric volume.", "quantifier": "all parallelepipeds", "why_tests_cant": "all coordinates", "anchors": ["scikit-topt/sktopt/fea/composer.py: get_elements_volume hex branch"]}
{"id": "C45", "title": "History export/import round-trips", "statement": "Importing an exported history file restores, for every non-empty history, exactly the exported data under the same name.", "quantifier": "all sequences of feeds", "why_tests_cant": "all histories and names", "anchors": ["scikit-topt/sktopt/tools/history.py: HistoryCollection.export_histories, import_histories"]}
{"id": "C46", "title": "Progress pages show every history exactly once", "statement": "The paging of export_progress places every history in exactly one cell of exactly one page, at most eight per page, with no two histories in the same cell.", "quantifier": "all numbers of histories", "why_tests_cant": "all counts", "anchors": ["scikit-topt/sktopt/tools/history.py: export_progress", "scikit-topt/sktopt/tools/scheduler.py: Schedulers.export"]}
{"id": "C47", "title": "Timer sections are recorded exactly once with their full path, even on exceptions", "statement": "Every entered section contributes exactly one record under the separator-joined path of the sections open at its entry, whether its body returns or raises, and afterwards the section stack is restored.", "quantifier": "all nested programs of sections with exceptions anywhere", "why_tests_cant": "all nestings and exception points", "anchors": ["scikit-topt/sktopt/tools/timer.py: SectionTimer.section"]}
{"id": "C48", "title": "Timer totals are consistent", "statement": "Per-section statistics satisfy count = number of records, total = sum, avg = total/count, max <= total for non-negative clocks; for well-nested sections the total of a section is at least the sum of its direct children's totals, so self time equals total minus children.", "quantifier": "all nested programs, all monotone clocks", "why_tests_cant": "all nestings and clocks", "anchors": ["scikit-topt/sktopt/tools/timer.py"]}
{"id": "C49", "title": "Solver selection is total and never falls back silently", "statement": "An explicitly chosen linear solver is used as is and errors propagate, fallback happens only in auto mode, and auto mode always selects a solver that exists; multi-load solves reject iterative-only choices.", "quantifier": "all solver names and system sizes", "why_tests_cant": "all sizes and names", "anchors": ["scikit-topt/sktopt/fea/solver_elastic.py: compute_compliance_basis, solve_u, solve_multi_load"]}
{"id": "C50", "title": "PETSc option resolution is idempotent and consistent", "statement": "Resolving PETSc options for a solver twice gives the same result as once; user options override defaults; the direct solver always resolves to preonly/lu or is rejected.", "quantifier": "all option values", "why_tests_cant": "all option combinations", "anchors": ["scikit-topt/sktopt/fea/solver_petsc.py"]}
{"id": "C51", "title": "Load scaling is reversible and linear", "statement": "Scaling a task by (L,F) and then by (1/L,1/F) restores its coordinates and loads, and scaling does not change the number of load cases.", "quantifier": "all scales and loads", "why_tests_cant": "all reals", "anchors": ["scikit-topt/sktopt/mesh/task_common.py: FEMDomain.scale", "scikit-topt/sktopt/mesh/task_elastic.py: force setter"]}
{"id": "C52", "title": "Element-to-node density averaging is a true average", "statement": "The nodal density at a node is the mean of the densities of the elements containing it.", "quantifier": "all meshes and densities", "why_tests_cant": "all meshes", "anchors": ["scikit-topt/sktopt/fea/solver_heat.py: _element_to_nodal_average", "scikit-topt/sktopt/mesh/task_heat.py"]}
{"id": "C53", "title": "Command-line arguments determine the configuration they name", "statement": "args2OC_Config_dict keeps every optimizer option given on the command line and turns each scheduler group into a scheduler configuration with the given values.", "quantifier": "all argument dictionaries", "why_tests_cant": "all dictionaries", "anchors": ["scikit-topt/sktopt/core/misc.py: args2OC_Config_dict"]}
{"id": "C54", "title": "A LogMOC run can be restarted from a snapshot", "statement": "A LogMOC optimizer constructed to resume from the snapshot of iteration k can execute iteration k+1.", "quantifier": "all problems, all k >= 1", "why_tests_cant": "every problem and resume point; a unit test uses one", "anchors": ["scikit-topt/sktopt/core/optimizers/logmoc.py: LogMOC_Optimizer.__init__, rho_update"]}
{"id": "C55", "title": "LogMOC's volume sensitivity is the true gradient of the physical volume", "statement": "The volume-constraint derivative used in the LogMOC Lagrangian is the derivative of the filtered and projected volume fraction with respect to the design densities.", "quantifier": "all densities, directions, projections and both filter types", "why_tests_cant": "a gradient identity for every field and direction", "anchors": ["scikit-topt/sktopt/core/optimizers/logmoc.py: LogMOC_Optimizer.rho_update"]}
{"id": "C56", "title": "Nodal Helmholtz filter gradient is the adjoint of its forward map", "statement": "HelmholtzFilterNodal.gradient is the adjoint (transpose) of forward, as the sensitivity chain rule needs.", "quantifier": "all meshes, all linear solves, all sensitivities", "why_tests_cant": "adjointness ranges over all fields", "anchors": ["scikit-topt/sktopt/filters/helmholtz_filter_nodal.py: HelmholtzFilterNodal.gradient"]}
{"id": "C57", "title": "Element adjacency is exact and symmetric", "statement": "The adjacency lists are symmetric, and on a conforming mesh the neighbours of an element are exactly the other elements sharing a face with it, whatever the node order inside elements.", "quantifier": "all meshes", "why_tests_cant": "all meshes", "anchors": ["scikit-topt/sktopt/fea/composer.py: adjacency_matrix", "scikit-topt/sktopt/filters/helmholtz_filter_element.py: adjacency_matrix_volume_tet_fast, adjacency_matrix_volume_hex_fast"]}
{"id": "C58", "title": "Design elements keep the density the update computed", "statement": "After an iteration every design element that carries no load has exactly the density computed by the update rule; in particular a task without load elements is optimised normally.", "quantifier": "all tasks, all update rules, all iterations", "why_tests_cant": "the violating configuration (heat task with design_dirichlet=True, load elements None) silently sets every density to 1", "anchors": ["scikit-topt/sktopt/core/optimizers/common_density.py: DensityMethod._optimize_impl, initialize_density"]}
{"id": "C59", "title": "A run can be resumed after an exception", "statement": "If a call raises in some iteration, calling again resumes at the iteration that failed, without repeating earlier iterations.", "quantifier": "all call histories, all failure points", "why_tests_cant": "failures can occur at any iteration of any chunk", "anchors": ["scikit-topt/sktopt/core/optimizers/common_density.py: DensityMethod._optimize_impl"]}
{"id": "C60", "title": "A new run owns its output directory", "statement": "After a new run (restart=False) in a used output directory, a restart resumes that run and not an older one.", "quantifier": "all directory contents, all runs", "why_tests_cant": "depends on every possible leftover content of the directory", "anchors": ["scikit-topt/sktopt/core/optimizers/common_density.py: DensityMethod.__init__, initialize_density", "scikit-topt/sktopt/core/misc.py: find_latest_iter_file"]}
{"id": "C61", "title": "Orientation repair makes hexahedra right-handed", "statement": "After fix_hexahedron_orientation every hexahedron has the same eight vertices and is right-handed at every corner, including when the input element is inverted.", "quantifier": "every mesh of hexahedral elements", "why_tests_cant": "a test checks one or two elements; the claim is about every node placement", "anchors": ["scikit-topt/sktopt/mesh/utils.py: fix_hexahedron_orientation"]}
{"id": "C62", "title": "Every element is designed, held at density 1, or fixed, for every optimizer built on a task", "statement": "For every optimizer built on a task, each element of the mesh is a design element, or is held at density 1 as a load or constrained element, or is a fixed element; non-design elements keep density 1 for the whole run.", "quantifier": "every task, every choice of design_dirichlet, every optimizer built on it, every reachable state of the run", "why_tests_cant": "needs the whole chain task construction, optimizer construction, every iteration and restart", "anchors": ["scikit-topt/sktopt/mesh/task_common.py: FEMDomain.from_nodes, exlude_dirichlet_from_design", "scikit-topt/sktopt/core/optimizers/common_density.py: DensityMethod.__init__, initialize_density"]}
{"id": "C63", "title": "Numbered boundary tags select their regions in numeric order", "statement": "Building a task from mesh tags uses the regions tagged dirichlet/neumann (single) or dirichlet_i/neumann_i (numbered), in increasing order of the number i, for elastic and heat tasks alike.", "quantifier": "every dictionary of boundary tags", "why_tests_cant": "tag names are arbitrary strings and numbers of any length; 10 must follow 9, not 1", "anchors": ["scikit-topt/sktopt/mesh/task_elastic.py: from_mesh_tags", "scikit-topt/sktopt/mesh/task_heat.py: from_mesh_tags"]}
{"id": "C64", "title": "Surface load resultant equals the prescribed force", "statement": "For each load region, the assembled load vector sums over the loaded direction to exactly the prescribed total force, is zero in the other directions, and there is one load vector per region.", "quantifier": "every mesh, every list of regions, directions and force values", "why_tests_cant": "the partition of the force over nodes depends on the facet geometry", "anchors": ["scikit-topt/sktopt/mesh/task_elastic.py: assemble_surface_forces"]}
{"id": "C65", "title": "Recorded statistics bracket the field", "statement": "Feeding a non-empty array to a history appends exactly its minimum, arithmetic mean and maximum (and population standard deviation if requested), latest() returns that entry, and no other history changes; empty arrays, empty histories and unknown names are rejected.", "quantifier": "all arrays, all collections", "why_tests_cant": "every array and every collection state", "anchors": ["scikit-topt/sktopt/tools/history.py: HistorySeries.add, HistorySeries.latest, HistoryCollection.feed_data"]}
{"id": "C66", "title": "Running averages of section times are arithmetic means per section", "statement": "When plots are drawn with moving averages, the value shown for a section is the arithmetic mean of the values that section had in all plots so far.", "quantifier": "all sequences of plots, all sections", "why_tests_cant": "every history of plots", "anchors": ["scikit-topt/sktopt/tools/timer.py: SectionTimer._update_running_average, plot_bar, plot_pie"]}
{"id": "C67", "title": "Unconverged solves are reported", "statement": "If the linear solver of an elasticity analysis does not converge or fails, the caller of the analysis is told (an exception), so that a returned displacement is never an unconverged iterate.", "quantifier": "all solver settings, systems and outcomes of the linear solver", "why_tests_cant": "the failing outcome depends on the matrix and the tolerance", "anchors": ["scikit-topt/sktopt/fea/solver_elastic.py: solve_u, compute_compliance_basis, compute_compliance_basis_multi_load"]}
{"id": "C68", "title": "Load cases are independent of being solved together", "statement": "The displacement and compliance of a load case are the same whether it is analysed alone or together with other load cases, in any order.", "quantifier": "all meshes, densities, sets of load cases, solver settings", "why_tests_cant": "every combination of load cases and solvers", "anchors": ["scikit-topt/sktopt/fea/solver_elastic.py: compute_compliance_basis, compute_compliance_basis_multi_load"]}
{"id": "C69", "title": "Compliance is twice the strain energy", "statement": "The compliance equals twice the sum of the element strain energies, is never negative, is zero only for zero energy, and scales with the square of a load factor.", "quantifier": "all meshes, densities, loads and supports for which the system is solved exactly", "why_tests_cant": "identity over all inputs; needs positive semidefiniteness of the assembled matrix", "anchors": ["scikit-topt/sktopt/fea/solver_elastic.py: compute_compliance_basis, strain_energy", "scikit-topt/sktopt/fea/composer.py: assemble_stiffness_matrix"]}
{"id": "C70", "title": "Adding material never increases compliance", "statement": "If every density of one design is at least that of another, its compliance under the same loads and supports is at most that of the other.", "quantifier": "all pairs of ordered density fields, meshes, loads", "why_tests_cant": "an inequality between two solves for every pair of designs", "anchors": ["scikit-topt/sktopt/fea/solver_elastic.py: compute_compliance_basis", "scikit-topt/sktopt/fea/composer.py: simp_interpolation"]}
{"id": "C71", "title": "The compliance derivative is the gradient of compliance", "statement": "The element-wise SIMP compliance derivative is the gradient of the compliance with respect to the (projected) densities: along any differentiable path of densities the compliance changes at the rate sum(dC * rho').", "quantifier": "all meshes, loads, densities above the clipping floor, directions", "why_tests_cant": "a derivative identity for every field and direction", "anchors": ["scikit-topt/sktopt/core/derivatives.py: dC_drho_simp", "scikit-topt/sktopt/fea/solver_elastic.py"]}
{"id": "C72", "title": "The sensitivity of an iteration is the gradient of the recorded objective", "statement": "The sensitivity field handed to the update is the gradient of the recorded mean compliance with respect to the design densities, through filter, projection, material law and analysis.", "quantifier": "all meshes, filters, radii, projection parameters, load cases, densities, directions", "why_tests_cant": "a derivative identity through the entire pipeline", "anchors": ["scikit-topt/sktopt/core/optimizers/common_density.py: DensityMethod._optimize_impl"]}
{"id": "C73", "title": "Every admissible density field gives a uniquely solvable system", "statement": "With Emin > 0, supports that exclude rigid motions and -1 < nu < 1/2, the constrained stiffness system has exactly one solution for every density field in [0,1]; with Emin = 0 this fails for the empty design.", "quantifier": "all meshes, all non-negative densities, all loads", "why_tests_cant": "invertibility for every density field", "anchors": ["scikit-topt/sktopt/fea/composer.py: assemble_stiffness_matrix", "scikit-topt/sktopt/fea/solver_elastic.py: solve_u"]}
{"id": "C74", "title": "Sensitivities handed to the update are non-positive", "statement": "The compliance sensitivities handed to the update rule are at most zero for every element, whatever filter and sensitivity filtering are chosen.", "quantifier": "all densities, energies, filters, options", "why_tests_cant": "sign for every field; OC takes a fractional power of minus this value", "anchors": ["scikit-topt/sktopt/core/optimizers/common_density.py: DensityMethod._optimize_impl"]}
{"id": "C75", "title": "LogMOC's multiplier accumulates the true volume errors", "statement": "The recorded LogMOC volume error is the volume fraction of the physical density minus the scheduled fraction; unclipped, the multiplier is mu_p times the exponentially discounted (ema) or plain (augmented) sum of all volume errors, it penalises material while the design is too heavy, the recorded derivative is the gradient of objective + coefficient * volume, and centring makes its volume-weighted sum zero.", "quantifier": "all histories of updates, all fields, both dual update modes", "why_tests_cant": "every history of volume errors", "anchors": ["scikit-topt/sktopt/core/optimizers/logmoc.py: LogMOC_Optimizer.rho_update"]}
{"id": "C76", "title": "The KKT residual certifies stationarity", "statement": "The reported KKT residual is at most eps exactly if the design of that iteration satisfies |dC + lambda dV| <= eps at every design element off the density bounds, for one multiplier lambda.", "quantifier": "all designs, sensitivities, multipliers, tolerances", "why_tests_cant": "every field", "anchors": ["scikit-topt/sktopt/core/optimizers/oc.py: OC_Optimizer.rho_update", "scikit-topt/sktopt/core/optimizers/logmoc.py: LogMOC_Optimizer.rho_update"]}
{"id": "C77", "title": "Design densities stay in [rho_min, rho_max] over every history of calls", "statement": "In a run with OC or LogMOC whose move_limit schedule is non-negative, after any sequence of optimize()/optimize_steps() calls, including calls that raise and restarts from a directory of admissible snapshots, every design element has a density of at least rho_min, and at most rho_max unless the driver pins it to 1 (load elements, fixed elements); every density snapshot in the directory satisfies the same.", "quantifier": "every configuration, task, filter, solver behaviour, sequence of calls and set of exceptions", "why_tests_cant": "unit tests check the result of one run; the bound must survive every interleaving of raising calls, chunks and restarts", "anchors": ["scikit-topt/sktopt/core/optimizers/common_density.py: initialize_density, _optimize_impl", "scikit-topt/sktopt/core/optimizers/oc.py: rho_update", "scikit-topt/sktopt/core/optimizers/logmoc.py: rho_update"]}
{"id": "C78", "title": "A well-posed OC run never raises and its histories are meaningful", "statement": "For an elasticity task with positive quadrature weights and moduli, admissible Poisson ratio, supports that exclude rigid motions, at least one design element and load case, complete schedules with values in their natural ranges, the spatial filter, SIMP and a direct solver, no sequence of optimize()/optimize_steps() calls raises; the histories contain exactly the iterations 1..iter_next-1 with non-negative compliances and density changes within the move limit of their iteration; completion means max_iters iterations or both tolerances met; optimize() always completes the run.", "quantifier": "every well-posed configuration, mesh, load set and sequence of calls", "why_tests_cant": "the whole pipeline (schedulers, filter, projection, finite element solve, sensitivity, bisection, recording, convergence test) must succeed at every iteration for every problem", "anchors": ["scikit-topt/sktopt/core/optimizers/common_density.py: _optimize_impl, init_schedulers, initialize_density", "scikit-topt/sktopt/core/optimizers/oc.py: rho_update", "scikit-topt/sktopt/tools/scheduler.py: Schedulers", "scikit-topt/sktopt/fea/solver_elastic.py: compute_compliance_basis_multi_load"]}
{"id": "C79", "title": "Boundary conditions reach exactly the prescribed dofs and elements", "statement": "For every basis and every argument list that FEMDomain.from_nodes / from_facets accept: the constrained degrees of freedom are, region by region, those of the given nodes in the given direction (all of them for 'all'); with a list of regions the numbers of regions and of directions or values must agree; and the element sets of the supports, the loads and the Robin faces are the elements owning the given faces, each reported under its own name and removed from the design set exactly if its design flag is off.", "quantifier": "all bases, node/facet arrays, directions, values and flags", "why_tests_cant": "Which dofs and elements are selected depends on the mesh, on every combination of single/list arguments and flags; a test fixes one.", "anchors": ["scikit-topt/sktopt/mesh/task_common.py: FEMDomain.from_nodes, FEMDomain.from_facets, setdiff1d"]}
{"id": "C80", "title": "A run computes the documented algorithm", "statement": "Whatever sequence of optimize()/optimize_steps(n) calls is made on a new OC run of a well-posed elasticity task (spatial filter, SIMP, direct solver), the densities and every line of the histories are exactly those of the documented algorithm: the first design is the initial volume fraction clipped to the box with 1 on pinned and fixed elements, and iteration k takes the scheduled values of its own number, filters with the Gaussian weights of the scheduled radius, thresholds, solves the virtual-work equation of every load case, applies the chain rule, rescales by the running scale, bisects the multiplier on the physical volume, applies growth, move limit and box, and records the compliance, load factor, volume error, largest change, multiplier and KKT residual of precisely this computation.", "quantifier": "all well-posed runs, meshes, load cases, schedules, directories and call sequences", "why_tests_cant": "a test compares a few runs with themselves; that every line of every history is the documented computation of its iteration quantifies over all runs and all iterations", "anchors": ["scikit-topt/sktopt/core/optimizers/common_density.py: DensityMethod._optimize_impl, _ensure_state_initialized, init_schedulers, initialize_density", "scikit-topt/sktopt/core/optimizers/oc.py: OC_Optimizer.rho_update, bisection_with_physical_volume"]}
{"id": "C81", "title": "A restarted run continues the saved one", "statement": "For every well-posed run configured with restart=True whose snapshot (restart_from, or the newest one) is that of iteration k <= max_iters with admissible design densities, whatever calls are made: no call raises, the iterations executed are exactly k+1, k+2, ..., their lines are appended to the stored histories (to none if there is no history file), each of them is the documented iteration with the scheduled values of its own number starting from the saved design densities (1 on pinned and fixed elements, 0 on other elements outside the design domain, running scale 0), and the box is respected.", "quantifier": "all well-posed restarted runs, directories, snapshots, stored histories and call sequences", "why_tests_cant": "restart correctness depends on every possible directory and saved state", "anchors": ["scikit-topt/sktopt/core/optimizers/common_density.py: DensityMethod.initialize_density, _ensure_state_initialized, _optimize_impl", "scikit-topt/sktopt/tools/history.py: HistoryCollection.import_histories", "scikit-topt/sktopt/core/misc.py: find_latest_iter_file"]}
{"id": "C82", "title": "Heat balance of every load case", "statement": "The temperatures returned by a heat analysis satisfy, for every load case, the discrete heat balance: the prescribed temperature on the Dirichlet nodes of that load case, and at every other node conduction (with the interpolated conductivities) plus losses through the Robin surfaces and through the solid-void interface (film coefficient h rho^p (1-rho)^q, measure |grad rho|) cancel.", "quantifier": "all meshes, load cases, density fields, material laws, Robin data and exponents", "why_tests_cant": "a test checks a few solutions; the balance must hold for every system the design can produce", "anchors": ["scikit-topt/sktopt/fea/solver_heat.py: solve_multi_load, solve_heat_system_multi, get_robin_virtual, FEM_SimpLinearHeatConduction.objectives_multi_load", "scikit-topt/sktopt/mesh/task_heat.py: assemble_surface_robin"]}
{"id": "C83", "title": "The heat system is uniquely solvable", "statement": "For positive conductivities, non-negative film coefficient and a mesh connected to the Dirichlet nodes, the linear system of every load case is regular and its solution is the only temperature field in heat balance, for every density field in [0,1].", "quantifier": "all connected meshes, density fields in [0,1], exponents and prescribed temperatures", "why_tests_cant": "regularity for every design reachable by the optimizer cannot be sampled", "anchors": ["scikit-topt/sktopt/fea/solver_heat.py: solve_multi_load", "scikit-topt/sktopt/fea/composer.py: assemble_conduction_matrix"]}
{"id": "C84", "title": "The heat sensitivity is the gradient of the objective", "statement": "The sensitivity the optimizer receives from a heat analysis is the derivative of the reported objective value with respect to the element densities, for each of the objectives compliance, heat_exchange and averaged_temp and for both material laws.", "quantifier": "all heat tasks, objectives, material laws, prescribed temperatures and designs", "why_tests_cant": "derivatives are limits and must agree at every design; finite differences on a few designs cannot establish this", "anchors": ["scikit-topt/sktopt/fea/solver_heat.py: FEM_SimpLinearHeatConduction.compliance_sensitivity_multi_load, _robin_compliance_explicit_grad_, _nodal_gradient_to_element_gradient", "scikit-topt/sktopt/core/optimizers/common_density.py: DensityMethod._optimize_impl"]}
{"id": "C85", "title": "design_robin_boundary makes the Robin boundary follow the design", "statement": "With design_robin_boundary=True the Robin coefficient on the boundary is scaled by the current density (h rho^p) at every analysis, so the objective and temperatures react to the density of the boundary elements.", "quantifier": "all heat tasks with Robin boundaries, densities and exponents", "why_tests_cant": "that an option is never effective (or always) is a statement about all densities", "anchors": ["scikit-topt/sktopt/mesh/task_heat.py: assemble_surface_robin, LinearHeatConduction.update_robin_bc", "scikit-topt/sktopt/fea/solver_heat.py: FEM_SimpLinearHeatConduction.objectives_multi_load"]}
{"id": "C86", "title": "Thermal compliance is the dissipated heat", "statement": "The reported thermal compliance of every load case is twice the sum of the reported element energies plus the dissipation h T^2 over Robin surfaces and interface; energies and compliance are never negative, and without Robin boundaries every design gives the uniform temperature with zero compliance, energies and sensitivities.", "quantifier": "all heat tasks, density fields, temperatures and material laws", "why_tests_cant": "an identity between two separately computed quantities for every field", "anchors": ["scikit-topt/sktopt/fea/solver_heat.py: FEM_SimpLinearHeatConduction.objectives_multi_load, heat_energy_skfem_multi"]}
{"id": "C87", "title": "from_defaults sets every option it is given or rejects it", "statement": "Config.from_defaults(**options) returns a configuration with exactly the fields of the class, in which every option given has the given value and every other field its default; an option that names no field is rejected.", "quantifier": "all dictionaries of keyword arguments, for every configuration class", "why_tests_cant": "the set of option dictionaries (including misspelt names) is unbounded", "anchors": ["scikit-topt/sktopt/core/optimizers/common_density.py: DensityMethodConfig.from_defaults"]}
{"id": "C88", "title": "Heat objective values are the quantities they name", "statement": "For every load case the heat analysis reports, for objective compliance, the dissipated heat; for averaged_temp, the average temperature; for heat_exchange, the mean of -Tenv h (T - Tenv) over the solid-void interface plus avg_temp_weight times the average temperature.", "quantifier": "every task, design, temperature field, objective, weight and number of load cases", "why_tests_cant": "the values depend on real-valued fields over arbitrary meshes; that the weighted multi-load objective does not depend on the design at all is a statement about all designs", "anchors": ["scikit-topt/sktopt/fea/solver_heat.py: FEM_SimpLinearHeatConduction.objectives_multi_load", "scikit-topt/sktopt/fea/solver_heat.py: heat_exchange_objective"]}
{"id": "C89", "title": "Adjoint element values are derivatives with respect to conductivity", "statement": "For objectives solved with an adjoint field, the element values returned by energy_multi_load are minus the derivative of the reported objective with respect to the element conductivities.", "quantifier": "every task, design, curve of conductivities and exact solver", "why_tests_cant": "a derivative identity for arbitrary meshes and coefficients", "anchors": ["scikit-topt/sktopt/fea/solver_heat.py: FEM_SimpLinearHeatConduction.energy_multi_load", "scikit-topt/sktopt/fea/solver_heat.py: avg_temp_grad_density_multi", "scikit-topt/sktopt/fea/solver_heat.py: _hx_adj_rhs_"]}
{"id": "C90", "title": "Von Mises stress is the equivalent stress", "statement": "For every symmetric stress tensor von_mises_from_stress_tensor returns the von Mises equivalent stress sqrt(3/2 s':s') of the deviator: it is non-negative, zero exactly for a pure pressure, unchanged by an added pressure and by a rotation of the frame, scales with |a|, and equals |sigma| in uniaxial tension and sqrt(3)|tau| in pure shear.", "quantifier": "all symmetric stress tensors, rotations, pressures and factors", "why_tests_cant": "identities and invariance over a continuum of tensors and frames", "anchors": ["scikit-topt/sktopt/fea/composer.py: von_mises_from_stress_tensor"]}
{"id": "C91", "title": "Reported element stresses are stresses", "statement": "stress_tensor_skfem returns the Cauchy stress (Hooke's law for the interpolated modulus applied to the strain of the displacement field) of each element, so that the equivalent stress computed from it does not depend on how finely the domain is meshed.", "quantifier": "all meshes, displacement fields, moduli and elements", "why_tests_cant": "the value must be right for every element size; a test on elements of one volume cannot tell a stress from its integral", "anchors": ["scikit-topt/sktopt/fea/composer.py: stress_tensor_skfem", "scikit-topt/sktopt/fea/composer.py: compute_element_stress_tensor", "scikit-topt/sktopt/fea/composer.py: von_mises_from_stress_tensor"]}
{"id": "C92", "title": "The configuration file restores the configuration", "statement": "import_from on the cfg.json written by export returns an equal configuration, and an optimizer built with it runs like one built with the original; keys of other classes are rejected, the obsolete key record_timing is ignored.", "quantifier": "all configurations of every class, all contents of cfg.json", "why_tests_cant": "a round trip over all configurations, including all solver options", "anchors": ["scikit-topt/sktopt/core/optimizers/common_density.py: DensityMethodConfig.export, DensityMethodConfig.import_from, DensityMethodConfig.__post_init__, DensityMethod.init_schedulers"]}
{"id": "C93", "title": "The default filter maps densities to densities", "statement": "With the default filter (nodal Helmholtz), filtering a density field with values in [lo, 1] gives filtered densities in [lo, 1], so that the projected densities and interpolated moduli stay in their ranges.", "quantifier": "all meshes, sets of non-design elements, filter radii and density fields", "why_tests_cant": "whether an overshoot occurs depends on the ratio of the radius and the element size and on the density pattern; tests with the usual radii and smooth fields never see one", "anchors": ["scikit-topt/sktopt/filters/helmholtz_filter_nodal.py: HelmholtzFilterNodal.forward, HelmholtzFilterNodal._forward_cho, prepare_helmholtz_filter_nodal", "scikit-topt/sktopt/core/projection.py: heaviside_projection"]}
{"id": "C94", "title": "A well-posed LogMOC run works", "statement": "On a physically meaningful problem with schedules in their natural ranges and a positive rho_min, any sequence of optimize and optimize_steps calls on a new LogMOC optimizer returns normally; the histories have exactly one line per iteration; densities stay in [rho_min, rho_max] (1 where pinned); every line has a non-negative compliance, a multiplier in [lambda_lower, lambda_upper], a consistent constraint coefficient and a density change at most the scheduled move limit; the run completes only at max_iters or on convergence.", "quantifier": "all problems, meshes, configurations (all optional terms), schedules, filter types, call sequences", "why_tests_cant": "needs every problem, configuration and call sequence", "anchors": ["scikit-topt/sktopt/core/optimizers/logmoc.py: LogMOC_Optimizer.rho_update", "scikit-topt/sktopt/core/optimizers/common_density.py: DensityMethod._optimize_impl"]}
{"id": "C95", "title": "A LogMOC run is the documented algorithm", "statement": "After any calls, the densities and history lines of a LogMOC run are those of the documented algorithm: in iteration k the scheduled values of k are used, the physical densities are analysed, the multiplier is updated by the volume error in the configured mode, the Lagrangian derivative (with optional centring, normalisation and filtering) is scaled by the running scale and the densities move multiplicatively within move limit and box.", "quantifier": "all problems, configurations, call sequences, iterations", "why_tests_cant": "refinement over all runs", "anchors": ["scikit-topt/sktopt/core/optimizers/logmoc.py: LogMOC_Optimizer.rho_update, lagrangian_log_update", "scikit-topt/sktopt/core/optimizers/common_density.py: DensityMethod._optimize_impl"]}
{"id": "C96", "title": "Misconfigured percentages and load scales are reported before anything happens", "statement": "If the percentile of the first iteration (or, for LogMOC, a percentage it uses) is outside [0, 100], every optimize() or optimize_steps(n > 0) call on a new optimizer raises ValueError in iteration 1 with the initial densities unchanged and no file written; a neumann_scale schedule of a type that does not end at 1 makes every call raise ValueError before the densities are initialized.", "quantifier": "all meshes, materials, loads, schedules, filters, snapshot directories and calls", "why_tests_cant": "a test can only try a few configurations", "anchors": ["scikit-topt/sktopt/core/optimizers/common_density.py: init_schedulers", "scikit-topt/sktopt/core/optimizers/oc.py: OC_Optimizer.rho_update", "scikit-topt/sktopt/core/optimizers/logmoc.py: LogMOC_Optimizer.rho_update"]}
{"id": "C97", "title": "OC runs do not depend on how the problem is described", "statement": "Take a well-posed OC problem and describe it differently: other numbers for elements, nodes, degrees of freedom or load cases, the mesh in another position or unit of length (with the filter radius in that unit), other directions of the axes, load cases given in reverse direction, other units of force and modulus (with scale_floor and tol_kkt, which have the unit of work, in the new unit). Then any sequence of optimize/optimize_steps calls does the same iterations, stops at the same one, gives corresponding elements the same densities, writes the same snapshots and the same history lines (in the respective unit of work).", "quantifier": "all pairs of well-posed problems related by such a change of description, new and restarted runs, all sequences of calls", "why_tests_cant": "an invariance over all problems, numberings and call sequences; tests compare single runs", "anchors": ["scikit-topt/sktopt/core/optimizers/common_density.py: optimize, optimize_steps", "scikit-topt/sktopt/core/optimizers/oc.py: rho_update, bisection_with_projection", "scikit-topt/sktopt/fea/solver_elastic.py: compute_compliance_basis_multi_load"]}
{"id": "C98", "title": "Symmetric problems give symmetric designs", "statement": "If a problem is mapped onto itself by a symmetry (mesh, supports, set of load cases up to order and sign, index sets), then the densities of mirrored elements are equal after any sequence of optimize/optimize_steps calls; the optimizer never breaks a symmetry by element or load-case order.", "quantifier": "all well-posed problems with a symmetry, all call sequences", "why_tests_cant": "quantifies over all symmetric problems and all intermediate designs of a run", "anchors": ["scikit-topt/sktopt/core/optimizers/common_density.py: optimize, optimize_steps", "scikit-topt/sktopt/core/optimizers/oc.py: rho_update, bisection_with_projection"]}
{"id": "C99", "title": "LogMOC runs do not depend on how the problem is described", "statement": "As for OC: describing a well-posed LogMOC problem with other numbers, axes, order or direction of load cases, or units (with lagrangian_scale_floor and, unless normalize_volume_chain is on, mu_p, al_mu and the multiplier bounds in the new unit of work) gives the same iterations, densities, snapshots and history lines (in the respective unit); tol_kkt needs no translation. Symmetric problems give symmetric designs.", "quantifier": "all pairs of well-posed problems related by a change of description, new runs, all sequences of calls", "why_tests_cant": "an invariance over all problems, numberings and call sequences", "anchors": ["scikit-topt/sktopt/core/optimizers/logmoc.py: rho_update", "scikit-topt/sktopt/core/optimizers/common_density.py: optimize, optimize_steps"]}
{"id": "C100", "title": "Well-posed heat runs work", "statement": "On a well-posed heat task (regular heat balance, percentages in range, spatial filter or default filter, and for the compliance with Robin boundaries the default filter) no sequence of optimize/optimize_steps calls on a new OC run raises; iterations are numbered consecutively, densities stay in their box, pinned elements are solid, each change is below the scheduled move limit, the recorded compliance is never negative, the task is left as it was, and optimize() completes, either after max_iters iterations or because the last line satisfies both tolerances.", "quantifier": "all heat tasks, objectives, configurations, snapshot directories, call sequences", "why_tests_cant": "ranges over all tasks and call sequences", "anchors": ["scikit-topt/sktopt/core/optimizers/common_density.py: DensityMethod._optimize_impl", "scikit-topt/sktopt/core/optimizers/oc.py: OC_Optimizer.rho_update", "scikit-topt/sktopt/fea/solver_heat.py: compute_objective_multi_load"]}
{"id": "C101", "title": "An OC heat run is the documented algorithm", "statement": "After any calls, the densities and history lines of a new OC run on a heat task are those of the documented algorithm: filter, threshold, heat balance of each load case, objective, sensitivities, OC update with the values scheduled for the iteration, each applied to what the previous iteration left. A restarted run continues with iteration k+1 from the saved densities and appends to the stored histories.", "quantifier": "all heat tasks, configurations, snapshot directories, call sequences", "why_tests_cant": "refinement over all runs", "anchors": ["scikit-topt/sktopt/core/optimizers/common_density.py: DensityMethod._optimize_impl, _initialize_optimization", "scikit-topt/sktopt/fea/solver_heat.py: FEM_SimpLinearHeatConduction", "scikit-topt/sktopt/core/optimizers/oc.py: OC_Optimizer.rho_update"]}
{"id": "C102", "title": "LogMOC runs on heat tasks work and are the documented algorithm", "statement": "On every well-posed heat task a new LogMOC run never raises, for each objective and either filter and whatever the sign of the sensitivities; densities, multipliers and changes respect their bounds; densities and history lines are those of the documented algorithm. A restarted LogMOC run raises AttributeError in its first iteration.", "quantifier": "all heat tasks, configurations, snapshot directories, call sequences", "why_tests_cant": "refinement over all runs", "anchors": ["scikit-topt/sktopt/core/optimizers/logmoc.py: LogMOC_Optimizer.rho_update", "scikit-topt/sktopt/core/optimizers/common_density.py: DensityMethod._optimize_impl", "scikit-topt/sktopt/fea/solver_heat.py: FEM_SimpLinearHeatConduction"]}
{"id": "C103", "title": "OC never computes NaN densities on heat tasks", "statement": "No OC run on a heat task with regular heat balance and admissible settings computes NaN densities.", "quantifier": "all heat tasks, objectives, filters, call sequences", "why_tests_cant": "the sign of the sensitivities depends on the design of each iteration", "anchors": ["scikit-topt/sktopt/core/optimizers/oc.py: bisection_with_projection", "scikit-topt/sktopt/fea/solver_heat.py: compliance sensitivities with Robin terms"]}
{"id": "C104", "title": "What the design of a heat run depends on", "statement": "Two well-posed runs on the same heat task that differ only in the neumann_scale schedule, the weight of the averaged temperature, and the choice between averaged_temp and heat_exchange (without Robin boundaries: between any two objectives) do the same iterations, compute the same densities and write the same snapshots; their history lines differ only in the recorded objective value and load scale. In particular the objective setting does not steer the design between averaged_temp and heat_exchange.", "quantifier": "all pairs of such runs, OC (new and restarted) and LogMOC, all call sequences", "why_tests_cant": "a relation between two runs over all tasks and call sequences", "anchors": ["scikit-topt/sktopt/core/optimizers/common_density.py: DensityMethod._optimize_impl (sensitivity of heat tasks)", "scikit-topt/sktopt/fea/solver_heat.py: compute_objective_multi_load"]}
{"id": "C105", "title": "A heat run without Robin boundaries has no design information", "statement": "On a well-posed heat task without Robin boundaries, after any calls all free design elements have one and the same density: the sensitivities vanish and each iteration only lets the density fade by the smallest admissible rate within move limit and box.", "quantifier": "all heat tasks without Robin boundaries, configurations, call sequences", "why_tests_cant": "quantifies over all intermediate designs", "anchors": ["scikit-topt/sktopt/fea/solver_heat.py: FEM_SimpLinearHeatConduction", "scikit-topt/sktopt/core/optimizers/oc.py: bisection_with_projection"]}
{"id": "C106", "title": "design_dirichlet=True lets elements at the Dirichlet boundary be designed in heat runs", "statement": "With design_dirichlet=True a heat task built from facets without Neumann facets (the documented use) is optimised: the elements next to the Dirichlet boundary take part in the design and only elements with prescribed loads are held solid.", "quantifier": "all meshes and heat tasks without Neumann facets, OC and LogMOC, all call sequences", "why_tests_cant": "quantifies over all tasks and runs", "anchors": ["scikit-topt/sktopt/core/optimizers/common_density.py: DensityMethod._optimize_impl (rho pinning)", "scikit-topt/sktopt/mesh/task_heat.py: LinearHeatConduction", "scikit-topt/sktopt/mesh/task_common.py: FEMDomain"]}
{"id": "C107", "title": "The final mesh is cut out of the original one", "statement": "export_submesh saves exactly the elements that are not design elements or have a density above the threshold, in their order, with the coordinates of their corners unchanged, neighbours still sharing vertices, and without unused vertices; it raises only if nothing is left.", "quantifier": "all meshes (any element type), design sets, densities and thresholds", "why_tests_cant": "quantifies over all meshes and density fields; index maps of every size", "anchors": ["scikit-topt/sktopt/mesh/visualization.py: export_submesh, setdiff1d"]}
{"id": "C108", "title": "The final mesh shows the final design", "statement": "cubic_top.vtu is written exactly once, by the call that completes the run, and shows the design the run ends with: the non-design elements and the elements that are solid in the physical (filtered and projected) density.", "quantifier": "all runs and call sequences", "why_tests_cant": "quantifies over all runs and histories of calls", "anchors": ["scikit-topt/sktopt/core/optimizers/common_density.py: DensityMethod._finalize", "scikit-topt/sktopt/mesh/visualization.py: export_submesh"]}
{"id": "C109", "title": "Runs with the RAMP law work", "statement": "An OC or LogMOC run with interpolation=\"RAMP\" behaves like one with SIMP: in a well-posed setup no call raises or produces NaN, densities stay within their bounds, and every iteration solves equilibrium with the RAMP moduli and applies the update to the sensitivities of those moduli.", "quantifier": "all well-posed setups (mesh, filter, loads, schedules), all call sequences", "why_tests_cant": "quantifies over all runs, setups and histories of calls", "anchors": ["scikit-topt/sktopt/core/optimizers/common_density.py: interpolation_funcs", "scikit-topt/sktopt/core/derivatives.py: dC_drho_ramp", "scikit-topt/sktopt/core/optimizers/oc.py: OC_Optimizer.rho_update"]}
{"id": "C110", "title": "scaling=True only changes units", "statement": "scaling=True is there for numerical conditioning: an OC run on an elasticity task with it works like the run without it, does the same iterations and computes the same designs; recorded compliances and residuals are the same up to one constant factor each, the units of the scaled problem.", "quantifier": "all well-posed elasticity setups and box sizes, all call sequences", "why_tests_cant": "quantifies over all runs, setups and histories of calls", "anchors": ["scikit-topt/sktopt/core/optimizers/common_density.py: DensityMethod.__init__, scale, unscale", "scikit-topt/sktopt/mesh/task_common.py: scale"]}
{"id": "C111", "title": "Box meshes fill the box with cells no larger than asked", "statement": "create_box_hex(x, y, z, mesh_size) succeeds for all positive arguments and returns a conforming mesh of congruent axis-parallel boxes that fills the box exactly, without overlaps, without duplicate points, already right-handed, with no edge longer than mesh_size and none shorter than half of it unless it is a whole edge of the box; selecting the elements in the box selects all of them, and all their computed volumes are equal.", "quantifier": "all positive box dimensions and mesh sizes, all elements, all points of space", "why_tests_cant": "A statement about every real mesh size and every point of the box, with the number of cells unbounded; tests look at one or two sizes.", "anchors": ["scikit-topt/sktopt/mesh/toy_problem.py: create_box_hex", "scikit-topt/sktopt/mesh/utils.py: get_points_in_range, fix_hexahedron_orientation", "scikit-topt/sktopt/fea/composer.py: _get_elements_volume_hex"]}
{"id": "C112", "title": "The toy cantilever is clamped on its end face and loaded on its surface", "statement": "For every mesh size, toy_base clamps exactly the faces on the plane x = 0, optimises the whole box, and applies its load to faces of the surface in the patch at the other end.", "quantifier": "all positive mesh sizes, all faces of all elements", "why_tests_cant": "Needs every mesh size; the tests use one coarse mesh and never look at which faces carry the load.", "anchors": ["scikit-topt/sktopt/mesh/toy_problem.py: toy_base", "scikit-topt/sktopt/mesh/utils.py: get_points_in_range"]}
{"id": "C113", "title": "The element adjacency matrix is 1 exactly for elements with a common node", "statement": "For every mesh, the matrix of build_element_adjacency_matrix is symmetric and holds 1 exactly where two elements have a node in common, as documented, and the fast variant builds the same matrix.", "quantifier": "all connectivities, all pairs of elements", "why_tests_cant": "Needs every connectivity and element size (the entries are 8-bit counts that wrap around); a test sees a few meshes.", "anchors": ["scikit-topt/sktopt/mesh/utils.py: build_element_adjacency_matrix", "scikit-topt/sktopt/mesh/utils.py: build_element_adjacency_matrix_fast"]}
{"id": "C114", "title": "The condition file shows the boundary conditions", "statement": "The file written before a run (condition.vtu) marks every node of the Robin, Dirichlet and Neumann boundaries with their colours and every other node with 0, and marks design elements and elements outside the design domain.", "quantifier": "all meshes, all node and facet sets, all design domains, both settings of design_dirichlet", "why_tests_cant": "Needs every combination of given and missing boundaries; the tests only check that a file exists.", "anchors": ["scikit-topt/sktopt/mesh/task_common.py: export_analysis_condition_on_mesh", "scikit-topt/sktopt/mesh/task_common.py: exlude_dirichlet_from_design"]}
{"id": "C115", "title": "A run leaves the user's environment variables alone", "statement": "optimize and optimize_steps of OC leave the sensitivity-mode variable of the process exactly as they found it (same value, or not set), also when they raise; their outcome does not depend on its value, and they touch no other variable.", "quantifier": "all environments, all runs (including those that raise), all sessions of calls", "why_tests_cant": "Needs every exit path of a run and every initial environment, in any sequence of calls.", "anchors": ["scikit-topt/sktopt/core/optimizers/oc.py: _scaled_sensitivity_mode", "scikit-topt/sktopt/core/optimizers/oc.py: optimize", "scikit-topt/sktopt/core/optimizers/oc.py: optimize_steps"]}
{"id": "C116", "title": "Every history has one entry per iteration", "statement": "After any number of iterations, every history registered by OC or LogMOC holds exactly one entry per iteration, in order: the recorded number, or its minimum, mean, maximum and deviation; the latest entries are the last iteration's; and the histories survive export and import.", "quantifier": "all numbers of iterations, of load cases and of elements, all recorded numbers", "why_tests_cant": "Needs every number of iterations and load cases, and every feed must match the kind of the history it goes to.", "anchors": ["scikit-topt/sktopt/core/optimizers/common_density.py: add_recorder", "scikit-topt/sktopt/core/optimizers/common_density.py: optimize_steps", "scikit-topt/sktopt/core/optimizers/oc.py: rho_update", "scikit-topt/sktopt/core/optimizers/logmoc.py: rho_update", "scikit-topt/sktopt/tools/history.py: as_object_latest"]}
{"id": "C117", "title": "Comparing histories answers True exactly for equal histories", "statement": "The comparison of two collections of histories answers True exactly if they have the same names, and under every name the same plot type and entry by entry the same shape and numbers up to rounding (relative to the second collection, NaN equal to NaN); in particular for a collection that was exported and imported.", "quantifier": "all collections with uniform data, all numbers including NaN and infinities", "why_tests_cant": "Needs every pair of collections, including different shapes, orders and non-finite numbers.", "anchors": ["scikit-topt/sktopt/tools/history.py: compare_histories_data_and_plot_type"]}
{"id": "C118", "title": "The mesh file of an iteration shows the mesh and the fields of that iteration", "statement": "The mesh file written for an iteration has the nodes and one cell per element of the mesh, every cell is the element itself as a solid, and the projected densities and energies are attached element by element; arrays of another length are rejected.", "quantifier": "all tetrahedral and hexahedral meshes, all densities and energies", "why_tests_cant": "Needs every mesh; a test compares the arrays of one file, not the solids that the format's corner order means.", "anchors": ["scikit-topt/sktopt/core/visualization.py: export_mesh_with_info", "scikit-topt/sktopt/core/optimizers/common_density.py: optimize_steps"]}
{"id": "C119", "title": "Loading a stiffness matrix from a mesh file uses the given material", "statement": "The stiffness matrix loaded for a Young's modulus and a Poisson ratio is that of the material with these constants, and both loaders accept exactly the files with tetrahedra or hexahedra and read the same cells.", "quantifier": "all material constants, all finite element bases, all lists of cell types in a file", "why_tests_cant": "Needs every material; the untested call passes engineering constants where Lame constants are expected.", "anchors": ["scikit-topt/sktopt/mesh/loader.py: load_stiffness_matrix", "scikit-topt/sktopt/mesh/loader.py: basis_from_file", "scikit-topt/sktopt/mesh/loader.py: load_mesh_auto"]}
{"id": "C120", "title": "The animation shows the pictures of a run in the order of the iterations", "statement": "Whatever the order in which the directory is listed, the frames of the animation are the pictures of the chosen kind in increasing order of their iterations, every (skip_frame+1)-th from the first; other files are never frames, and without pictures nothing is written.", "quantifier": "all directories, all sets of iterations below 100000000, all prefixes without wildcards, all values of skip_frame", "why_tests_cant": "Needs every set of recorded iterations: the order of the file names has to be that of the numbers.", "anchors": ["scikit-topt/sktopt/core/visualization.py: images2gif", "scikit-topt/sktopt/core/optimizers/common_density.py: image_path"]}
{"id": "C121", "title": "An optimization continued over several processes documents itself", "statement": "If one process starts a run in an empty output directory and later processes restart it from the newest snapshot with a max_iters that is not smaller, each calling optimize(), then no process raises and the histories file at the end has exactly one line for each iteration 1..k up to the last one executed, whose snapshot is the newest in data/.", "quantifier": "all well-posed elasticity problems, all sequences of processes, programs of calls in each, and max_iters/record_times of each", "why_tests_cant": "the number of processes, of iterations and of ways to cut the run into calls is unbounded", "anchors": ["scikit-topt/sktopt/core/optimizers/common_density.py: DensityMethod.initialize_density, DensityMethod._finalize, DensityMethod.__init__", "scikit-topt/sktopt/tools/history.py: import_histories, export_histories"]}
{"id": "C122", "title": "An element filter always filters with what was asked for last", "statement": "After any sequence of update_radius and preprocess calls on a HelmholtzFilterElement, including calls with an unknown solver option (which raise ValueError and change nothing), forward and gradient answer exactly like a new filter made for the radius asked for last and the last known option; no solver built for an earlier radius is ever used. With a direct solver that solves exactly they solve the Helmholtz system of that radius and stay in range. Tolerance and iteration limit assigned by the user survive a change of radius except with cg_jacobi, which resets them.", "quantifier": "every mesh, radius, option, sequence of calls and input vector", "why_tests_cant": "quantifies over all call histories of a stateful object holding three solver handles", "anchors": ["scikit-topt/sktopt/filters/helmholtz_filter_element.py: HelmholtzFilterElement.update_radius, preprocess, forward, gradient, from_defaults"]}
{"id": "C123", "title": "An answer of the iterative element filter is accurate", "statement": "Whenever forward or gradient of a HelmholtzFilterElement with the option cg_jacobi returns, the answer satisfies the Helmholtz system up to the tolerance 1e-5 relative to the right-hand side, and so is close to the exactly filtered density; otherwise RuntimeError is raised.", "quantifier": "every mesh, radius, sequence of calls before and input vector", "why_tests_cant": "the iteration count and the stopping test depend on the mesh size; small meshes take a path no unit test reaches", "anchors": ["scikit-topt/sktopt/filters/helmholtz_filter_element.py: apply_helmholtz_filter_cg, apply_filter_gradient_cg, create_LinearOperator"]}
{"id": "C124", "title": "A killed run can be restarted", "statement": "Whenever a running optimization is killed (crash, kill -9, queue time limit), the output directory it leaves behind can be used for a restart: the newest snapshot in data/ is readable and holds the densities after exactly that iteration, at most max_iters // record_times iterations are lost, and restart=True resumes it and finishes the run. (False in the code for kills while a snapshot or histories.npz is being written: np.savez writes in place, the torn file is the newest one or is read by every restart, and every restart then fails until it is removed by hand; also for kills in the first iteration. The history lines of a killed process are always lost.)", "quantifier": "every update rule, solver and convergence test, every program of optimize/optimize_steps calls, every configuration, every moment of the kill (between any two actions or half way through a write), every number of earlier restarts", "why_tests_cant": "a test kills at one or two chosen moments; the claim is about every moment, including the middle of a write, which no test can hit reliably", "anchors": ["scikit-topt/sktopt/core/optimizers/common_density.py: DensityMethod.initialize_density", "scikit-topt/sktopt/core/optimizers/common_density.py: DensityMethod._optimize_impl", "scikit-topt/sktopt/core/optimizers/common_density.py: DensityMethod._finalize", "scikit-topt/sktopt/core/misc.py: find_latest_iter_file", "scikit-topt/sktopt/tools/history.py: HistoryCollection.export_histories", "scikit-topt/sktopt/tools/history.py: HistoryCollection.import_histories"]}
{"id": "C125", "title": "The recorded objective is that of the design", "statement": "The entry of the objective history for iteration k is the objective value of a design the run passed through: the one before the update of iteration k. A user relies on the last entry being the objective value of the design the run ends with; that holds if the last update changed nothing and is violated in general.", "quantifier": "all well-posed new OC runs on elasticity tasks, all programs of calls", "why_tests_cant": "a test compares the history with a recomputation for one design; which design each entry belongs to is a statement about all iterations of all runs", "anchors": ["scikit-topt/sktopt/core/optimizers/common_density.py: CommonDensity_Optimizer._optimize_impl, _finalize", "scikit-topt/sktopt/core/optimizers/oc.py: OC_Optimizer.rho_update"]}
{"id": "C126", "title": "The compatibility functions of sktopt.fea.solver compute what the solver module computes", "statement": "Calling solve_u, compute_compliance_simp_basis, compute_compliance_basis, compute_compliance_basis_numba, solve_multi_load or compute_compliance_basis_multi_load of sktopt.fea.solver gives the displacement of the supported body under the given load(s), and the compliances, with the given solver, tolerance and iteration limit, like the functions of sktopt.fea.solver_elastic they stand for.", "quantifier": "all bodies, loads, interpolations, solver choices, tolerances, limits and behaviours of the numerical libraries", "why_tests_cant": "the argument combinations and library behaviours are unbounded; no test of the repository calls the multi-load wrappers", "anchors": ["scikit-topt/sktopt/fea/solver.py: _normalize_solver_arg, compute_compliance_simp_basis, solve_u, compute_compliance_basis, compute_compliance_basis_numba, solve_multi_load, compute_compliance_basis_multi_load", "scikit-topt/sktopt/fea/solver_elastic.py: solve_u, compute_compliance_basis"]}
{"id": "C127", "title": "A given solver configuration determines the solve", "statement": "When solver_config is given, it takes precedence over solver, rtol, maxiter and petsc_options in all elasticity analysis functions (a configuration passed as solver has the same effect), and all its settings, including allow_fallback_to_spsolve, are honoured.", "quantifier": "all configurations, all values of the other arguments, all bodies, loads and behaviours of the libraries", "why_tests_cant": "precedence is a statement about all pairs of argument values; failing back ends cannot be enumerated", "anchors": ["scikit-topt/sktopt/fea/solver_elastic.py: normalize_linear_solver_config, compute_compliance_basis, solve_multi_load, compute_compliance_basis_multi_load"]}
{"id": "C128", "title": "solve_multi_load returns the loads it solved for", "statement": "solve_multi_load writes the displacement of every load case to u_all and returns the load vectors with enforced supports, one per load case, so that the products of a returned load and its displacement are the compliances.", "quantifier": "all bodies, any number of load cases, all solver arguments", "why_tests_cant": "the number and values of load cases are unbounded", "anchors": ["scikit-topt/sktopt/fea/solver_elastic.py: solve_multi_load, compute_compliance_basis_multi_load"]}
{"id": "C129", "title": "The direct heat solvers solve every load case", "statement": "solve_scipy and solve_scipy_heat_multi_enforce of the heat module return, for every load case, the temperature that has the prescribed value on the Dirichlet nodes of that case and balances the heat at all other nodes; wrongly sized arguments are rejected.", "quantifier": "all matrices, heat loads, numbers of load cases and Dirichlet sets (also different ones per case)", "why_tests_cant": "systems and combinations of Dirichlet sets are unbounded", "anchors": ["scikit-topt/sktopt/fea/solver_heat.py: solve_scipy_heat_multi_enforce, solve_scipy"]}
{"id": "C130", "title": "Densities stay in their box in floating-point arithmetic", "statement": "With rho_min <= rho_max and move limits that are not negative, after any calls of optimize and optimize_steps (new run or restart, raising or not) every design element that is neither pinned nor fixed has a density that is NaN or in [rho_min, rho_max], and each OC update moves a density by at most the rounded move limit, also when additions, products, powers and logarithms are rounded, overflow or produce NaN. LogMOC runs satisfy the box for every arithmetic and move limit. In exact arithmetic the updates are those of the real-number model.", "quantifier": "all roundings in which adding a non-negative number does not decrease, all tasks, filters, solvers, schedules, sensitivities (NaN, infinite), histories of calls", "why_tests_cant": "rounding errors depend on the data; a test sees the rounding of a few runs on one machine", "anchors": ["scikit-topt/sktopt/core/optimizers/oc.py: bisection_with_physical_volume, OC_Optimizer.rho_update", "scikit-topt/sktopt/core/optimizers/logmoc.py: lagrangian_log_update", "scikit-topt/sktopt/core/optimizers/common_density.py: optimize"]}
{"id": "C131", "title": "Well-behaved analyses never lead to NaN densities", "statement": "If the sensitivities of the free elements are finite and not positive, the scaling statistic and exponent are numbers, the move limit is finite and not negative, and the bracket of the multiplier does not overflow when doubled, then no OC run ever computes a NaN density; a LogMOC run does not if the derivative of the Lagrangian consists of numbers and move_limit / rho + 1 does not overflow.", "quantifier": "all floating-point arithmetics with IEEE signs and NaN rules (results may be rounded in any direction or overflow), all runs and histories of calls", "why_tests_cant": "NaN appears only for rare combinations of rounding, underflow and overflow", "anchors": ["scikit-topt/sktopt/core/optimizers/oc.py: rho_update", "scikit-topt/sktopt/core/optimizers/logmoc.py: lagrangian_log_update"]}
{"id": "C132", "title": "The volume multiplier stays in its configured range in floating-point arithmetic", "statement": "The multiplier OC's bisection returns is a number in [lambda_lower, lambda_upper] for 0 <= lambda_lower <= lambda_upper, whatever the volume errors are, NaN included; LogMOC's multiplier is NaN or in [lambda_lower, lambda_upper].", "quantifier": "all arithmetics in which halving a sum stays between the summands, all volume-error functions and iteration limits", "why_tests_cant": "a bisection test covers a few functions", "anchors": ["scikit-topt/sktopt/core/optimizers/oc.py: bisection_with_physical_volume", "scikit-topt/sktopt/core/optimizers/logmoc.py: LogMOC_Optimizer.rho_update"]}
{"id": "C133", "title": "A Step schedule changes when its steps begin, also in double precision", "statement": "With max_iters = m and n steps, a Step schedule has the k-th of its n equidistant values (up to rounding) from iteration k*m/n on, as in exact arithmetic, when everything is computed in IEEE double precision.", "quantifier": "all roundings to the nearest double, all initial and target values of ordinary size, all m and n with m*n at most 2^50, all iterations", "why_tests_cant": "whether a step length is rounded up or down depends on m and n; a test covers a few pairs, and exact-arithmetic reasoning misses the effect", "anchors": ["scikit-topt/sktopt/tools/scheduler.py: schedule_step, Scheduler.value"]}
{"id": "C134", "title": "A sawtooth schedule restarts its cycles, also in double precision", "statement": "In IEEE double precision a SawtoothDecay schedule has the value of exact arithmetic up to rounding at every iteration; in particular it is back at its initial value at the iteration at which a cycle begins.", "quantifier": "all roundings to the nearest double, all initial and target values of ordinary size, all m and n with m*n at most 2^50, all iterations", "why_tests_cant": "whether a restart is missed depends on the rounding of m/n for every m and n", "anchors": ["scikit-topt/sktopt/tools/scheduler.py: schedule_sawtooth_decay, Scheduler.value"]}
{"id": "C135", "title": "Stepped schedules keep to their ends in double precision", "statement": "In IEEE double precision Step, StepAccelerating and StepDecelerating schedules (and the *ToOne types) are exactly at their initial value during the first step and exactly at their target during the last step and after the horizon, and never leave the interval between the two.", "quantifier": "all roundings to the nearest double, all power functions with 0**c = 0, 1**c = 1 that keep [0,1], all values of ordinary size, all m, n with m*n at most 2^50, all iterations", "why_tests_cant": "rounding depends on every argument", "anchors": ["scikit-topt/sktopt/tools/scheduler.py: schedule_step, schedule_step_accelerating, schedule_step_decelerating, Scheduler.from_config, Scheduler.value"]}
{"id": "C136", "title": "The projection keeps to [0, 1] in floating-point arithmetic", "statement": "In every floating-point format whose rounding is monotone and commutes with the change of sign (IEEE double precision, round to nearest, is one) the Heaviside projection of a density in [0,1] is a finite number in [0,1], exactly 0 at density 0, monotone in the density, and its derivative is never NaN and never negative, also where cosh overflows, for every finite beta >= 0 and eta in [0,1].", "quantifier": "all formats, all monotone odd library tanh with values in [-1,1] and all cosh >= 1, all densities, beta and eta", "why_tests_cant": "rounding errors and overflow depend on every argument", "anchors": ["scikit-topt/sktopt/core/projection.py: heaviside_projection_inplace, heaviside_projection_derivative_inplace"]}
{"id": "C137", "title": "Moduli and sensitivities in floating-point arithmetic", "statement": "In every floating-point format the SIMP and the RAMP modulus of a density in [0,1] is a finite number not below Emin, exactly Emin at density 0 and monotone in the density; the SIMP sensitivity of an element with non-negative energy is never NaN and never positive, as long as 2 E0, 2 energy, p E0 and 1 + p do not overflow.", "quantifier": "all formats, all densities, energies, moduli and penalties without overflow", "why_tests_cant": "rounding errors and overflow depend on every argument", "anchors": ["scikit-topt/sktopt/fea/composer.py: simp_interpolation, ramp_interpolation", "scikit-topt/sktopt/core/derivatives.py: dE_drho_simp, dC_drho_simp"]}
{"id": "C138", "title": "The spatial filter in double precision", "statement": "In double precision, with any monotone rounding, the spatial filter turns densities in [0,1] into finite numbers in [0, 1 + 2^-11] for every row of at most 2^20 kernel values in [0,1] that contains the element itself. The range [0,1] itself is not kept: with round to nearest a solid element among four solid neighbours of kernel value 1/16 gets 1 + 2^-52.", "quantifier": "all rows of kernel values, all densities, all roundings", "why_tests_cant": "rounding errors accumulate over a row whose length is unbounded in practice", "anchors": ["scikit-topt/sktopt/filters/spacial.py: build_filter_matrix, SpacialFilter.forward"]}
{"id": "C139", "title": "No NaN in a double-precision SIMP run", "statement": "In an OC run in double precision with the default bounds, the spatial filter and the SIMP law, every density of a design element, and every density of a design element in a snapshot, is a number in [rho_min, rho_max] and never NaN after any history of calls of the optimizer, whatever raised, as long as moduli, energies and move limits are at most 2^200, 1/2 <= p <= 32, 1/2 <= beta <= 2^20 (which Step schedules between numbers from 1 on deliver in double precision), rows have at most 2^20 entries and there are at most 2^30 design elements and 2^20 load cases.", "quantifier": "all histories of calls, kernels, energies, schedules, restarts and faults within the sizes", "why_tests_cant": "overflow and NaN propagate through filter, projection, chain rule and update over any number of iterations", "anchors": ["scikit-topt/sktopt/core/optimizers/common_density.py: optimize_steps", "scikit-topt/sktopt/core/optimizers/oc.py: OC_Optimizer.rho_update", "scikit-topt/sktopt/filters/spacial.py: SpacialFilter.forward, SpacialFilter.gradient", "scikit-topt/sktopt/core/projection.py: heaviside_projection_inplace, heaviside_projection_derivative_inplace", "scikit-topt/sktopt/core/derivatives.py: dC_drho_simp"]}
{"id": "C140", "title": "No NaN in a double-precision LogMOC run", "statement": "In a LogMOC run in double precision with rho_min = 0.01, rho_max = 1, the spatial filter and the SIMP law, every density of a design element, and every density of a design element in a snapshot, is a number in [rho_min, rho_max] and never NaN after any history of calls, whatever raised (restarted runs raise, C54); in every iteration that succeeds the multiplier is a finite number in [lambda_lower, lambda_upper], the running scale a positive finite number and every scaled derivative of the Lagrangian finite. Sizes as for OC; scale floors in [2^-40, 1], gains and penalty factors at most 2^20, multiplier bounds at most 2^40; any combination of normalize_volume_chain, filter_lagrangian and dual_update without centring.", "quantifier": "all histories of calls, options, kernels, energies, schedules, restarts and faults within the sizes", "why_tests_cant": "quotients of percentiles, multipliers and logarithms can overflow or become NaN in any of arbitrarily many iterations", "anchors": ["scikit-topt/sktopt/core/optimizers/logmoc.py: LogMOC_Optimizer.rho_update, lagrangian_log_update", "scikit-topt/sktopt/core/optimizers/common_density.py: optimize_steps"]}
{"id": "C141", "title": "Parallel mesh loops are race-free", "statement": "The parallel (numba) orientation repair and the parallel tetrahedron and hexahedron volume loops return, under every interleaving of their iterations' reads and writes, exactly what the sequential routines return, and no interleaving can keep them from returning.", "quantifier": "all meshes, all node positions, all schedules of the loop iterations (any number of threads, any chunking, any interleaving of single reads and writes)", "why_tests_cant": "A data race shows only under particular interleavings, which a test neither chooses nor repeats; the statement is about all of them.", "anchors": ["scikit-topt/sktopt/mesh/utils.py: fix_tetrahedron_orientation_numba", "scikit-topt/sktopt/fea/composer.py: _get_elements_volume_tet_numba, _get_elements_volume_hex_numba, get_elements_volume"]}
{"id": "C142", "title": "Task attributes read as they were written", "statement": "Assigning a public attribute of an elasticity task (force_elements, force_nodes, dirichlet_force_elements) makes it read as assigned, whatever other attributes are assigned in between; reading force and assigning it back changes neither the loads that are solved nor the number of tasks; design_mask selects exactly the design elements of the mesh.", "quantifier": "all tasks, all values, all sequences of assignments, all element sets", "why_tests_cant": "Needs every sequence of assignments and every number of load cases; the tests never assign these attributes.", "anchors": ["scikit-topt/sktopt/mesh/task_elastic.py: force, force_elements, force_nodes, dirichlet_force_elements, force_elements_all, n_tasks", "scikit-topt/sktopt/mesh/task_common.py: design_mask"]}
{"id": "C143", "title": "The predefined problems on a mesh file can be set up", "statement": "For every mesh file with tetrahedra or hexahedra, toy_msh sets up each of its named problems with the support on the slab at x = 0, the force on the facets in the named patch and the elements of the box as design elements; any other name is rejected.", "quantifier": "all mesh files, all facets and elements, all names", "why_tests_cant": "Quantifies over every mesh; the repository has no test for the mesh-file problems.", "anchors": ["scikit-topt/sktopt/mesh/toy_problem.py: toy_msh, load_mesh_auto", "scikit-topt/sktopt/mesh/utils.py: get_points_in_range"]}
{"id": "C144", "title": "A supported body can be analysed", "statement": "For a body meshed in one piece with tetrahedra that are not flat, or with box-shaped hexahedra (as create_box_hex makes them, default intorder=2), every load has exactly one displacement field if and only if the supports exclude every rigid motion of the body: fixing all components of three nodes not on a line is enough; fixing one direction only, or only nodes on a line, is not. In particular the predefined problems toy_test, toy1, toy1_fine can be analysed for every mesh size, and OC's optimize() completes on every such body with a valid configuration. (Two points per direction are needed: with one integration point per hexahedron, which an exact reading of intorder=1 would give, a clamped body still has displacements without load.)", "quantifier": "every mesh of any size, every set of fixed degrees of freedom, every field of positive moduli, every Poisson ratio in (-1, 1/2), every load, every element size of the box meshes", "why_tests_cant": "a singular or nearly singular system makes the solvers return numbers anyway; a test can solve some meshes, not show that no mesh and support has a hidden mechanism", "anchors": ["scikit-topt/sktopt/mesh/loader.py: basis_from_file", "scikit-topt/sktopt/mesh/toy_problem.py: create_box_hex", "scikit-topt/sktopt/mesh/toy_problem.py: toy_base", "scikit-topt/sktopt/fea/composer.py: assemble_stiffness_matrix", "scikit-topt/sktopt/fea/solver_elastic.py: compute_compliance_basis"]}
{"id": "C145", "title": "A cooled or held body has a temperature field", "statement": "For a heat-conduction body meshed with tetrahedra that are not flat, or with hexahedra of any non-degenerate shape (two integration points per direction), every prescribed temperature has exactly one temperature field for every density if and only if every piece of the mesh has a node with prescribed temperature; with Robin boundaries of positive film coefficient a cooled surface on a piece is as good as such a node. OC's and LogMOC's runs then complete; the meshes of create_box_hex satisfy the conditions with a single node. (Two points per direction are needed: with one integration point per hexahedron a body held at four corners still has temperature fields without any heat.)", "quantifier": "every mesh of any size and dimension, every density field, every conductivity law with positive values, every set of prescribed nodes and cooled surfaces, every valid configuration and history of calls", "why_tests_cant": "Invertibility of the conductivity matrix is a statement about every mesh and every density a run passes through; a test shows one mesh.", "anchors": ["scikit-topt/sktopt/mesh/task_heat.py: LinearHeatConduction, assemble_surface_robin", "scikit-topt/sktopt/fea/composer.py: assemble_conduction_matrix", "scikit-topt/sktopt/fea/solver_heat.py: solve_scipy", "scikit-topt/sktopt/core/optimizers/common_density.py: optimize"]}
{"id": "C146", "title": "Surface heat sources", "statement": "assemble_surface_neumann rejects lists of different lengths, returns a bare vector exactly for one region and otherwise one vector per region in order, each independent of the other regions; the entries of a vector add up to flux times area, have the sign of the flux, and vanish at nodes away from the surface.", "quantifier": "every number of regions, every set of facets of every mesh of first-order elements, every flux", "why_tests_cant": "Ranges over every mesh, region list and flux; the function has no caller and no test.", "anchors": ["scikit-topt/sktopt/mesh/task_heat.py: assemble_surface_neumann"]}
{"id": "C147", "title": "The predefined problem toy2", "statement": "toy2 builds the 8 x 8 x 1 plate with the sides in the plane x = 0, and no others, fixed in all components; two load cases in direction u^2 of total force -1 and +1 act on the sides in the plane x = 8 at y >= 7.7 and at y <= 0.3, and on no others, in this order; every element is offered for design; every load on the plate has exactly one displacement field.", "quantifier": "all sides of all elements of the mesh, all loads, moduli and Poisson ratios", "why_tests_cant": "Exactness of the selection is a statement about every facet; uniqueness about every load and every density a run visits.", "anchors": ["scikit-topt/sktopt/mesh/toy_problem.py: toy2, create_box_hex", "scikit-topt/sktopt/mesh/utils.py: get_points_in_range", "scikit-topt/sktopt/mesh/task_elastic.py: from_mesh_tags"]}
{"id": "C148", "title": "The Jacobian of the element filter is its derivative", "statement": "compute_filter_gradient_matrix(mesh, radius) returns two functions: filter_jacobian_matrix() is the matrix of partial derivatives of the filtered densities of an element filter of that mesh and radius with the direct solver, whatever was done with the filter before, and filter_grad_vec(v) is the derivative in direction v. Its entries are non-negative, its rows add up to one, and weighted with the volumes its columns add up to the volume of their element. The gradient method of the filter applies the Jacobian itself, not its transpose; the two agree for all sensitivities exactly if adjacent elements have equal volumes.", "quantifier": "every mesh with positive volumes, radius, density field, direction, sequence of calls made on the filter", "why_tests_cant": "a derivative at every point of every density field on every mesh; finite differences on one mesh have a tolerance", "anchors": ["scikit-topt/sktopt/filters/helmholtz_filter_element.py: compute_filter_gradient_matrix", "scikit-topt/sktopt/filters/helmholtz_filter_element.py: HelmholtzFilterElement.gradient"]}
{"id": "C149", "title": "The text of a command-line option means one thing", "statement": "For yes/no options the texts true, t, false and f in any case are the only ones accepted and mean what they say; for number-or-nothing options none, null and nan in any case mean that nothing was given, any other text means the number Python's float reads in it, and a text without a number ends the program with the usage message; no option ever has the value NaN.", "quantifier": "every text of every such option", "why_tests_cant": "all texts; a test tries a few spellings", "anchors": ["scikit-topt/sktopt/core/misc.py: str2bool", "scikit-topt/sktopt/core/misc.py: float_or_none"]}
{"id": "C150", "title": "A number of steps may be any decimal number", "statement": "The command line hands the schedules a float as number of steps. For every real number of steps q the value of a step schedule of any shape stays between initial value and target and moves only towards the target; for q > 1 it is the initial value during the first m/q of m iterations, the target from ceil(q-1) m/q on and not before, and k/(q-1) of the way on step k of a linear schedule; for q <= 1 or no number it is the target throughout; a whole number means the same as the integer. NaN raises ValueError and infinity ZeroDivisionError before the horizon.", "quantifier": "every real or special number of steps, horizon, iteration, initial value, target, curvature > 0", "why_tests_cant": "all real numbers of steps and all iterations; the documentation and the tests know whole numbers only", "anchors": ["scikit-topt/sktopt/tools/scheduler.py: schedule_step", "scikit-topt/sktopt/tools/scheduler.py: schedule_step_accelerating", "scikit-topt/sktopt/tools/scheduler.py: schedule_step_decelerating", "scikit-topt/sktopt/tools/scheduler.py: Scheduler.value", "scikit-topt/sktopt/core/misc.py: float_or_none"]}
{"id": "C151", "title": "The zero of the temperature scale does not matter", "statement": "Adding a constant to all prescribed temperatures and to the ambient temperature of a heat task (kelvin or degrees Celsius) shifts the computed temperatures by it and changes nothing else: an optimization makes the same designs, writes the same snapshots, stops at the same iteration and records the same histories, except that an objective that is a temperature is shifted.", "quantifier": "all heat tasks on Lagrange elements, all constants, well-posed OC and LogMOC runs, all sequences of calls, restarts included for OC", "why_tests_cant": "Tests use one set of temperatures and compare with nothing; the claim relates two runs of any length.", "anchors": ["scikit-topt/sktopt/fea/solver_heat.py: compliance_sensitivity_multi_load, objectives_multi_load", "scikit-topt/sktopt/mesh/task_heat.py: LinearHeatConduction.from_facets"]}
{"id": "C152", "title": "Order, repetition and sign of the load cases do not matter", "statement": "Listing the load cases of a task in another order, listing each of them the same number of times, and reversing any of the forces of an elasticity task changes nothing in an optimization: same designs, snapshots, stopping iteration and histories.", "quantifier": "all tasks, all reorderings and uniform repetitions of any number of load cases, all sign changes (elasticity), well-posed OC and LogMOC runs on elasticity and heat tasks, all sequences of calls", "why_tests_cant": "A test lists the load cases in one order; the claim relates two runs of any length for every reordering.", "anchors": ["scikit-topt/sktopt/fea/solver_elastic.py: FEM_SimpLinearElasticity.objectives_multi_load", "scikit-topt/sktopt/fea/solver_heat.py: FEM_SimpLinearHeatConduction.objectives_multi_load", "scikit-topt/sktopt/core/optimizers/common_density.py: DensityMethod.optimize_steps"]}
{"id": "C153", "title": "How often snapshots are taken does not influence the optimization", "statement": "Changing record_times (from 1 to max_iters) changes which snapshots are written and nothing else: densities, histories, executed iterations, exceptions and completion are the same.", "quantifier": "all optimizers, tasks, filters and convergence behaviours, all admissible pairs of record_times, all sequences of calls, including calls after exceptions", "why_tests_cant": "A test compares two short runs; the claim is about every history of calls, for every update rule.", "anchors": ["scikit-topt/sktopt/core/optimizers/common_density.py: DensityMethod._optimize_impl, DensityMethod.optimize_steps"]}
{"id": "C154", "title": "Scheduler classes and the configuration API agree", "statement": "Building a schedule through a class constructor (SchedulerStep, SchedulerStepToOne, \u2026, SchedulerSawtoothDecay) gives, for the same arguments, the scheduler Scheduler.from_config builds from the corresponding SchedulerConfig factory, whenever the factory accepts them; for the three ToOne classes both reject the same arguments with the same exception, and on the k-th of n blocks the value is (k+1)/n. The constructors of the other classes check nothing: a missing curvature or start value surfaces as TypeError at the first evaluation. Scheduler.from_config called on any subclass raises.", "quantifier": "all names, start and target values, numbers of steps, horizons, curvatures (each possibly missing), iterations, configurations and classes", "why_tests_cant": "the agreement is over all argument combinations and all iterations; tests compare a few schedules", "anchors": ["scikit-topt/sktopt/tools/scheduler.py: SchedulerStep, SchedulerStepToOne, SchedulerStepAcceleratingToOne, SchedulerStepDeceleratingToOne, SchedulerStepAccelerating, SchedulerStepDecelerating, SchedulerSawtoothDecay, Scheduler.from_config, SchedulerConfig"]}
{"id": "C155", "title": "PETSc works with the settings it is given", "statement": "solve_u_petsc makes PETSc solve with the matrix, Krylov method, preconditioner, factorization package, tolerance and iteration limit the caller asked for, except where use_set_from_options is on and PETSc's option database has an entry under the given prefix; solver 'petsc_spdirect' therefore means a direct solve; solve_u_petsc_multi returns for every column what solve_u_petsc returns for it alone; without petsc4py both raise RuntimeError; and an elastic load case gets the same solution alone and among others.", "quantifier": "all option objects and dictionaries, prefixes, option databases, matrices, right-hand sides, tolerances, limits and numbers of load cases", "why_tests_cant": "PETSc is absent in the test environment, and its option database is process-global state no test controls", "anchors": ["scikit-topt/sktopt/fea/solver_petsc.py: _import_petsc, _create_ksp, _solve_with_ksp, solve_u_petsc, solve_u_petsc_multi, petsc_options_for_solver", "scikit-topt/sktopt/fea/solver_elastic.py: solve_u, solve_multi_load"]}
{"id": "C156", "title": "Timing charts show where the time went", "statement": "After any program of timed sections, plot_bar(stacked_nested=True) draws for every section that has children a bar made of its own time and one segment per direct child, without gaps, as long as the section's total; plot_pie draws one wedge per section, labels exactly those above the threshold, is refused exactly when there is nothing to show, and its total is the time spent in the top-level sections.", "quantifier": "all programs of nested, repeated and failing sections, clocks, orders of sorting, metrics and thresholds", "why_tests_cant": "a chart's content depends on the whole history of sections; tests only check that a figure is returned", "anchors": ["scikit-topt/sktopt/tools/timer.py: SectionTimer.plot_bar, plot_pie, summary, summary_self_time"]}
{"id": "C157", "title": "The units of temperature and power do not matter", "statement": "Expressing a heat problem in other units - temperatures times t (t \u2260 0), conductivities and film coefficients times b > 0, prescribed temperatures and ambient temperature accordingly, and the optimizer's scale floor, KKT tolerance (OC) or scale floor, gains and bounds (LogMOC) in the new unit b\u00b7t\u00b2 of the objective - leads to the same densities, snapshots, iteration counters and histories (in the new units) after every sequence of calls; temperatures and sensitivities are the old ones in the new units (the value of the weighted heat exchange objective, which adds numbers of different units, is excepted), whenever the conductivities stay above the code's absolute floor 1e-12.", "quantifier": "all tasks with or without Robin boundaries, load cases, meshes, filters, projections, factors t and b and sequences of calls on a new optimizer", "why_tests_cant": "a test fixes one unit system; a hidden absolute constant in the chain of scalings, clippings and percentiles would show only for some magnitudes", "anchors": ["scikit-topt/sktopt/fea/solver_heat.py: solve_multi_load, heat_energy_skfem_multi, get_robin_virtual, FEM_SimpLinearHeatConduction", "scikit-topt/sktopt/mesh/task_heat.py: LinearHeatConduction.from_facets", "scikit-topt/sktopt/core/optimizers/oc.py: OC_Optimizer.rho_update", "scikit-topt/sktopt/core/optimizers/logmoc.py: LogMOC_Optimizer.rho_update"]}
{"id": "C158", "title": "The numbering of the mesh does not matter in heat runs", "statement": "Renumbering the nodes and the elements of the mesh of a heat problem, with everything else given for the same places, leads to the same temperatures at the same places, and to the same designs, snapshots and histories, element by element.", "quantifier": "all heat tasks, bijections of the nodes, permutations of the elements, density fields, solvers that solve nonsingular systems, directories and sequences of calls", "why_tests_cant": "the numbering is chosen by the mesh generator; a test that compares two numberings of one small mesh says nothing about the others, and averages over elements may go wrong only for some numberings", "anchors": ["scikit-topt/sktopt/fea/solver_heat.py: _element_to_nodal_average, FEM_SimpLinearHeatConduction.objectives_multi_load", "scikit-topt/sktopt/mesh/task_heat.py: LinearHeatConduction.from_facets", "scikit-topt/sktopt/core/optimizers/common_density.py: DensityMethod.optimize"]}
{"id": "C159", "title": "Heat runs with the RAMP law work", "statement": "An OC or LogMOC run on a heat task with interpolation=\"RAMP\" behaves like one with SIMP: in a well-posed setup no call raises or produces NaN, iterations are consecutive, densities stay within their bounds, every iteration solves the heat balance with the RAMP conductivities and applies the update to the sensitivities of those conductivities; a restarted OC run continues from the saved densities; unknown interpolation names are rejected.", "quantifier": "all well-posed heat tasks, settings, directories and sequences of optimize/optimize_steps calls", "why_tests_cant": "quantifies over all tasks and histories of calls; a test runs one configuration", "anchors": ["scikit-topt/sktopt/core/optimizers/common_density.py: interpolation_funcs, DensityMethod", "scikit-topt/sktopt/fea/solver_heat.py: FEM_SimpLinearHeatConduction.objectives_multi_load, compliance_sensitivity_multi_load"]}
{"id": "C160", "title": "The statistics of nodes and elements are right", "statement": "`nodes_and_elements_stats` prints, for the nodes and for the element centres, the minimum, maximum, mean, median and standard deviation of the distance of each one to the nearest other one, and draws the volume of all elements, of the constrained ones, of the loaded ones and of the design elements; each bar lies between zero and the volume of the whole mesh", "quantifier": "all meshes, element volumes and tasks", "why_tests_cant": "the statistics range over arbitrary point sets, including coinciding points and meshes with a single element", "anchors": ["scikit-topt/sktopt/mesh/task_common.py: FEMDomain.nodes_and_elements_stats"]}
{"id": "C161", "title": "Element values of heat analyses are those of each load case", "statement": "`avg_temp_skfem_multi`, `heat_energy_skfem_multi`, `heat_exchange_grad_density_multi` and `avg_temp_grad_density_multi` fill column j with the integral over each element for load case j: the averaged temperature relative to the ambient one (on tetrahedra: volume times mean of the corner temperatures minus ambient), half the conductivity times the squared temperature gradient (never negative, summing to half the dissipated heat), the product of the gradients of temperature and adjoint field; missing adjoint fields raise IndexError", "quantifier": "all finite element bases, temperatures, numbers of load cases, conductivity laws and ambient temperatures", "why_tests_cant": "integrals over arbitrary meshes and any number of load cases, filled column by column", "anchors": ["scikit-topt/sktopt/fea/solver_heat.py: avg_temp_skfem, avg_temp_skfem_multi, heat_energy_skfem, heat_energy_skfem_multi, heat_exchange_grad_density_multi, avg_temp_grad_density_multi"]}
{"id": "C162", "title": "The unit of length does not matter in heat runs", "statement": "Expressing a heat problem in another unit of length - coordinates and filter radius times s > 0, film coefficients divided by s, and the optimizer's scale floor and KKT tolerance (OC), or scale floor, gains and multiplier bounds (LogMOC), in the resulting unit of heat flow per temperature - gives the same temperatures for the same densities; and, without Robin boundaries or with the objective averaged_temp, the same densities, snapshots, iteration counters and histories (in the new units) after every sequence of calls of a new run, with both density filters.", "quantifier": "all well-posed heat tasks in up to three dimensions, units, schedules, directories and sequences of calls", "why_tests_cant": "a test compares two runs of one problem; the claim is about all problems, units and histories of calls", "anchors": ["scikit-topt/sktopt/fea/composer.py: assemble_conduction_matrix", "scikit-topt/sktopt/core/optimizers/common_density.py: DensityMethod", "scikit-topt/sktopt/filters/spacial.py: SpacialFilter", "scikit-topt/sktopt/filters/helmholtz_filter_nodal.py: HelmholtzFilterNodal"]}
