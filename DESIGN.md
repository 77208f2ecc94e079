# Formal model of scikit-topt in Lean 4 — design

## 1. Layout

* `lean/Verif/Model/*.lean` — the model, one file per source module; every definition cites the lines of
  `/repo/scikit-topt/sktopt` it models and says where it simplifies.
* `lean/Verif/Spec/*.lean` — small, independent specifications (order, averages, element volumes, trajectories of a run,
  heat balance written as integrals, …) that do not use helpers of the model.
* `lean/Verif/Lemmas/*.lean` — helper lemmas.
* `lean/Verif/Props/*.lean` — the property theorems. A theorem `Cnn_…` belongs to property `Cnn` of `properties.jsonl`.
  Beside the theorems, `example`s (or witnesses used in refutations) show that the hypotheses are met by concrete
  non-trivial cases.
* `MANIFEST.json` — property → theorems, status and a note. `seeded/LOG.jsonl` — the mutation tests of section 6.

Names: `…_partial` proves a part of the property and its comment says what is missing. If the code violates the property,
the negation is proved with a concrete witness (or, better, for all inputs of a class), and the property is `partial`.

## 2. Trusted base

* **Lean's kernel** (4.33.0), and the kernel-checked parts of Mathlib that are imported.
* **Axioms.** No axiom of our own; no `native_decide`, `bv_decide` or compiled evaluation. `#print axioms` of every
  theorem listed in `MANIFEST.json` gives a subset of `propext`, `Classical.choice`, `Quot.sound`. Nearly all depend on all
  three (real numbers are built with them). Exceptions: `C42_stale_cache_wrong`, `C50_spdirect_accepts`,
  `C67_status_ignored` use only `propext`, `Quot.sound`; `C49_no_fallback_unless_auto`, `C49_solve_u`,
  `C49_unknown_rejected`, `C50_merge_field_by_field`, `C50_normalize_field_by_field` only `propext`.
* **The translation.** The model was written by hand from the Python text. That it says what the Python code does is a
  matter of reading: every definition cites its lines. Section 3 lists what was left out.
* **Semantics assumed of libraries** (never axioms: they are either definitions of the model or hypotheses of theorems):
  * `float64` is the field of real numbers `ℝ`. Rounding, overflow, infinities and NaN are not modelled, except that a NaN
    produced by a negative base in `np.power` is an explicit value (`none`) in the OC update. C130–C132 drop this assumption for the
    update rules and the runs around them: there a float is NaN or an element of a linear order (infinities included, the sign of zero
    is not represented), and the arithmetic is arbitrary up to the laws in `Spec/Rounded.lean`, which are hypotheses of the theorems.
    `Props/Format.lean` proves them for every monotone rounding to a number format, IEEE doubles among them (`Spec/Format.lean`: exact
    result, then rounding; for `pow` this is more than a C library promises, but C131 only uses that powers of non-negative numbers are
    non-negative numbers). LogMOC's laws for `log` and `exp` follow from `FairLogExp` (Spec/RoundedLog.lean; C140), which the rounded real
    functions meet. C133–C135 drop it for the schedules: every operation is
    the exact one followed by rounding to the nearest double (any tie rule; `fmod` is exact), without overflow. C136–C137 drop it for
    projection, moduli and sensitivities: any monotone rounding that commutes with the change of sign, `tanh` monotone and odd. C138–C140
    drop it for the spatial filter and the whole chain from densities to densities; sparse products add up from the left, from 0.0, without
    fused operations, and energies, kernel values and statistics are arbitrary finite numbers of the sizes in `Spec/RoundedRun.lean` and `Spec/RoundedLog.lean`.
  * Python exceptions are values (`Except Err α`), mutation is state passing, dictionaries are association lists in insertion
    order, loops are structural recursion, folds, or recursion on the code's own iteration limit.
  * `skfem`: a basis is the table of values/gradients of its functions at the quadrature points and the quadrature weights;
    `enforce(K, f, D=D, x=x)` replaces the rows `D` by rows of the identity and the entries of `f` by `x`;
    `get_dofs` is a given map from nodes/facets to degrees of freedom; vertices of hexahedra come in skfem's order. For C144 the table itself is modelled: isoparametric
    mapping, P1/trilinear shape functions, two-point Gauss rule per direction for `intorder=2` and `3` (`skfem` takes `ceil((intorder+1)/2)` points). Whether `intorder=1` means one point
    (that formula) or is raised to 2 depends on the version of skfem, which is not in the repository: the theorems about one point are about the rule, not a finding about a particular skfem.
  * Direct solvers return the solution of a regular system (hypothesis `ExactDirect`). Iterative solvers and PETSc are an
    arbitrary back end that may return anything together with a status. C155 refines PETSc to an object with settings: `setFromOptions` replaces a
    setting when the option database has an entry under the solver's prefix, a factorization package is kept only by preconditioners that
    factorize, and a solve depends on settings, matrix and right-hand side only.
  * `scipy.sparse.linalg.cg` as called by the element filter is the textbook loop in exact arithmetic with SciPy's stopping rule: the
    residual is tested before each pass, `info` is `maxiter` when the passes run out (so 0 when `maxiter` is 0).
  * `scipy.spatial.cKDTree.query(…, k=2)` gives the two smallest distances, the point itself included, and `inf` for a missing one, for
    which `plt.hist` raises; `np.median` is the middle of the sorted values;
  * `scipy.spatial.cKDTree.query_ball_point` is the closed ball; `np.percentile` is an arbitrary function (in the LogMOC
    update) or an explicit argument; regular expressions and `int()` are modelled for ASCII digits.
  * A `prange` loop of numba gives every iteration its own scalar and fixed-size variables; reads and writes of single array cells are
    atomic and take effect in one order (C141); the reductions numba may infer do not occur in these loops.
  * The file system is a finite map from names to contents; a write of one file is atomic, except in Model/Crash.lean (C124),
    where a kill can leave a file half written: `np.savez` truncates the file first and a cut-off file cannot be read; earlier writes stay.

## 3. What is modelled and what is not

| Source (sktopt/…) | Modelled (module) | Not modelled |
|---|---|---|
| tools/scheduler.py | all schedules, `SchedulerConfig`, `Scheduler`, `Schedulers` (Scheduler), values in double precision (SchedFloat), fractional numbers of steps (SchedFrac), the subclasses (SchedClasses) | array argument of `value`, plots |
| tools/history.py | `HistoryLogger`, collection, statistics, paging, npz export/import (History), views and comparison, what the optimizers record (Recorder) | figures |
| tools/timer.py | sections, decorators, totals, running means (Timer), stacked bars and pies (Chart) | threads, printing, appearance of plots |
| core/misc.py | snapshot search, CLI options, `args2OC_Config_dict` (Snapshot, Cli), texts of options (CliValues) | `argparse` itself |
| core/projection.py, core/derivatives.py | everything (Projection, Material), in rounded arithmetic (RoundedMaterial) | rounded RAMP derivative |
| core/optimizers/oc.py | bisection, `rho_update`, run, environment guard (OC, Run, Env) | — |
| core/optimizers/logmoc.py | `lagrangian_log_update`, `rho_update`, run (LogMOC, RunLog); in double precision (Rounded, RoundedLog; without centring) | command line `__main__` |
| core/optimizers/common_density.py | `from_defaults`, `__post_init__`, density initialisation, schedulers, the iteration, `optimize`, `optimize_steps`, snapshots, restart, cfg.json (Driver, Run, RunRamp, RunHeatRamp, RunScaled, Pipeline, Snapshot, Solver, Cli, ConfigFile), several processes in one directory (Project), killed processes (Crash) | images, vtu files, logging |
| fea/composer.py | material laws, elasticity and conduction forms, stresses, volumes (also the parallel loops), adjacency (Material, Elastic, Stress, Heat, Geometry, Adjacency, Parallel) | the floating-point type of the numba loops |
| fea/solver.py, solver_elastic.py, solver_petsc.py, _petsc_compat.py | solver selection, options, load cases, compliance, energies, the wrappers with their arguments (Solver, Elastic, Entry), the calls that configure PETSc (Petsc) | numerical back ends |
| fea/solver_heat.py, mesh/task_heat.py | system, Robin terms, objectives, adjoint fields, element values, sensitivities (Heat), whole runs (RunHeat), the basis table of first-order elements and of their facets (HeatBasis), surface sources (HeatSource), element values of several load cases (HeatValues) | list-valued Robin coefficients inside the virtual terms |
| filters/spacial.py | everything but I/O (Spacial); in double precision (RoundedRun) | — |
| filters/helmholtz_filter_*.py | both filters; matrices of the element filter (Helmholtz, Adjacency); the element filter object and its CG calls (FilterElement), the Jacobian (Jacobian) | AMG and LU internals, I/O |
| mesh/utils.py | orientation repair, element queries and cache, box queries (Geometry, Mesh, BoxMesh) | — |
| mesh/task_common.py, task_elastic.py | construction, index sets, facets and loads, tags, scaling, attributes (Task, Load, Attributes), statistics of nodes and elements without the histograms (Stats), colours of `condition.vtu` (Condition) | — |
| mesh/visualization.py | `export_submesh` (Submesh); its call in `_finalize` (Driver) | file writing |
| mesh/toy_problem.py | `create_box_hex` with `skfem`'s tensor mesh, the sets `toy_base`, `toy2` and `toy_msh` select (BoxMesh, Toy2, ToyMsh) | tetrahedral boxes |
| mesh/loader.py | material and cell choice (Loader), the basis built from the mesh (FEBasis) | reading files |
| core/visualization.py | mesh files of an iteration (Vtu), frames of the animation (Gif) | plots, pixels |

## 4. Properties: what is modelled and how it is proved

| Property | What is modelled | How it is proved |
|---|---|---|
| C01–C05 | `schedule_step`, `_accelerating`, `_decelerating`, `Scheduler.value` over ℝ/ℤ | floor arithmetic, convexity, `rpow` monotonicity |
| C06–C07 | `schedule_sawtooth_decay` | floor arithmetic; C07 is violated: negation + partial |
| C08–C11 | `SchedulerConfig.from_defaults`, `Scheduler.from_config` (with mutation), `Schedulers` | case analysis; refinement of the collection to a finite map |
| C12 | `schedule_exp_slowdown/accelerate` | `Real.exp` monotonicity |
| C13–C18 | `bisection_with_physical_volume` with filter/projection as parameters; C16 and C18 also in terms of the textbook law of `Spec/OCLaw.lean` (`Props/OCLaw.lean`), C20, C21 likewise (`Props/LogLaw.lean`) | loop invariant by induction on fuel (= the code's own `max_iter`) |
| C19–C21, C54, C55, C75, C76 | `lagrangian_log_update`, the multiplier update of `LogMOC.rho_update` | `Real.exp/log` monotonicity, derivatives, induction over volume-error histories |
| C22–C23 | `heaviside_projection` and variants | `tanh` monotonicity, `HasDerivAt` |
| C24–C26 | `simp_interpolation`, `ramp_interpolation`, `dE_drho_*`, `dC_drho_*` | `HasDerivAt`; RAMP derivative is wrong in the code: negation + partial |
| C27–C28 | `build_filter_matrix`, `SpacialFilter` on finite point sets | finite sums |
| C29–C31 | the element Helmholtz operator; solver = any exact solution | discrete maximum principle; r⁴ finding for C30, adjoint finding for C31 |
| C32, C56 | nodal transfer operators | finite sums; C56 violated: witness + partial |
| C33–C38, C58, C59 | optimisation driver as a state machine with abstract per-iteration step | induction over calls and iterations; crash at any point |
| C39–C40, C60 | snapshot directory, file names, restart | string/number round trip; C40 violated for OC `running_scale` |
| C41–C42, C62, C79 | element index sets of task construction, facets, mesh queries | list/finset reasoning |
| C43–C44, C61 | tetra/hexa geometry; volume as an integral | polynomial identities, change of variables; C44 violated (7/6 factor) |
| C45–C46, C65 | history collection, paging, statistics | list reasoning, division arithmetic |
| C47–C48, C66 | timer as small-step program semantics | induction on programs |
| C49–C50, C67 | solver/PETSc option resolution, dispatch | case analysis over all names and options |
| C51, C63, C64 | task scaling, tags, surface loads | algebra; sorting; number-of-load-cases finding |
| C52, C82–C86 | the heat analysis: averaging, system, objectives, sensitivities | finite sums, quadratic forms, implicit differentiation of the solution; four refutations for C84 |
| C88, C89 | objective values and adjoint fields of the heat analysis | finite sums; implicit differentiation; refutations for the average, the weight, non-zero temperatures, heat exchange |
| C90, C91 | stress post-processing on the elasticity data | matrix algebra (traces, orthogonal frames); C91 violated: the integral is returned |
| C92 | `export`, `import_from`, constructor with `__post_init__`, first part of `init_schedulers` | finite maps; C92 violated: schedules come back as dictionaries |
| C53, C87 | `args2OC_Config_dict`, the parser's options, `from_defaults` | dictionaries as finite maps |
| C57 | face keys, adjacency | counting shared faces; hex face table refuted |
| C68–C71, C73 | elasticity: forms, compliance, energies, sensitivities, solvability | symmetric bilinear forms, implicit differentiation, monotonicity |
| C72, C74 | filter → projection → analysis → chain rule of one iteration | chain rule with the exact adjoint; nodal filter refuted |
| C94, C95 | whole LogMOC runs (Model/RunLog.lean) with either filter and all optional terms | invariant indexed by the iteration number; refinement of `Spec/RunLog.lean` |
| C96 | misconfigured runs: percentages outside [0, 100], inadmissible load scale types | initialization lemma, then the first iteration raises (`first_step_raises`) |
| C97–C99 | two whole OC or LogMOC runs of the same problem in two descriptions (`Spec/Alike.lean`); symmetric problems | simulation between the two drivers (`Lemmas/Simulate.lean`), invariance of every quantity of an iteration (`Lemmas/Alike.lean`); numbering, order and direction of load cases, and units as corollaries |
| C100–C102 | whole OC and LogMOC runs on heat tasks (Model/RunHeat.lean), the task object being part of the state | the generic run lemmas (`Lemmas/RunBy.lean`, `Lemmas/RunLogBy.lean`) with the heat response, transported by an embedding of systems (`Lemmas/Embed.lean`); refinement of `Spec/RunHeat.lean` |
| C103 | OC runs on heat tasks whose first sensitivity is positive | violated: a concrete run with a spatial filter, Robin boundaries and the compliance; the rest is a corollary of C100 |
| C104, C105 | two heat runs that differ in objective, weight and load scale; heat runs without Robin boundaries | simulation of twin runs (`Lemmas/Twin.lean`); refinement of a fading iteration, then invariance of uniform densities |
| C106 | heat tasks built from facets together with their runs and `design_dirichlet=True` | violated: invariant "every density is 1" over all histories of calls |
| C107, C108 | `export_submesh`; the densities `_finalize` hands to it | the dictionary of new vertex numbers is the inverse of a sorted list; invariant over all histories of calls; C108 is violated: a concrete run whose physical design is missing |
| C109 | the choice of interpolation and whole runs with the RAMP law (Model/RunRamp.lean) | the generic run lemmas with the RAMP response; violated for OC with the spatial filter: a concrete run from solid computes NaN |
| C110 | `scale` and the run that follows it (Model/RunScaled.lean) | simulation between the run with scaling and the run without it but with the radius multiplied by the box edge and the absolute tolerances in its units; violated as stated, because `filter_radius` is not converted: a concrete bar records another compliance |
| C111, C112 | `create_box_hex`, `toy_base` (Model/BoxMesh.lean) on top of `skfem`'s documented tensor mesh | arithmetic of the point numbering, floor and ceiling; C112 is violated: faces inside the body carry load for every mesh size up to 1.2 |
| C113 | both builders of the element adjacency matrix (Model/Mesh.lean) | counting pairs; violated as documented: the entries are counts of common nodes, not 1, and the builders differ on the diagonal |
| C114 | `export_analysis_condition_on_mesh` after each way of building a task (Model/Condition.lean) | induction over the painted index lists; violated for every elasticity and heat task: indexing with `None` paints every node |
| C115 | the context manager around OC runs, with an arbitrary run inside (Model/Env.lean) | case analysis of the exit paths, induction over sessions |
| C116, C117 | the registered histories, the feeds of one iteration of OC and LogMOC, the views, `compare_histories_data_and_plot_type` (Model/Recorder.lean) | invariant over iterations that every history grows by the fed entry; `C117_not_symmetric` shows that the comparison is neither symmetric nor transitive |
| C118 | `export_mesh_with_info` as called in an iteration (Model/Vtu.lean); the solids meant by an element and by a VTK cell are in Spec/Vtu.lean | the file's cells are the element's node lists; tetrahedra: same solid; hexahedra: a point of every parallelepiped element lies outside its VTK cell (violated, `C118_hexahedra_twisted`) |
| C119 | `mesh/loader.py` (Model/Loader.lean), skfem's `linear_elasticity` written out | both forms expanded in trace and double contraction; equality of the forms tested on a shear and a stretch |
| C120 | `image_path`, `images2gif` (Model/Gif.lean): names (each file carries the number of its iteration), pattern, order of strings, stride | the order of strings is total; on equally long strings of digits it is that of the numbers; sorted lists with the same members are equal |
| C121 | several processes in one output directory (Model/Project.lean): snapshots and `histories.npz`, which only `_finalize` writes | what a program of calls leaves in `data/` (Lemmas/Project.lean), then induction over the processes with the C78/C81 run theorems; refuted for processes that stop early and for restarts from an earlier iteration |
| C122 | the object `HelmholtzFilterElement` (Model/FilterElement.lean): attributes, solver handles, `update_radius`, `preprocess`, assigned settings | invariant of the object over every sequence of calls, refused ones included |
| C123 | `apply_*_cg`, `create_LinearOperator`, SciPy's preconditioned CG in exact arithmetic | the loop variable `r` is the residual (induction over passes); energy estimate for the error; refuted below eight elements |
| C124 | kills at any moment (Model/Crash.lean): the list of entries and writes of the driver, every prefix of it, possibly with one half of the next write; reading at a restart | the event list agrees with the driver (induction); every prefix is a segment of consecutive iterations with all due snapshots of the finished ones; refuted for torn files; Props/CrashChain.lean: any number of kills, each followed by a restart from what the previous one left, then a final undisturbed attempt, ends with the iterations numbered as if never killed, and each kill loses at most max_iters // record_times iterations; instances for the elastic, RAMP and heat runs |
| C125 | OC runs (Model/Run.lean): the line of an iteration is fed after the update with values computed before it | the sequence of designs of the trajectory (C80); refuted for the last design by a concrete one-iteration run whose displacement, sensitivity and bisection are computed by hand (`C125_last_objective_stale`) |
| C126 | solver.py, every wrapper with its arguments and keyword binding (Model/Entry.lean) | virtual-work specification (Spec/Entry.lean), exact direct solver; arbitrary back ends for the equalities; multi-load wrappers refuted (TypeError) |
| C127 | the solver arguments of the elasticity functions (Model/Entry.lean) | equalities for arbitrary back ends; the fallback flag is refuted |
| C128 | `solve_multi_load` with its two kinds of return value (Model/Entry.lean) | two or more load cases by virtual work; one load case refuted |
| C129 | `solve_scipy_heat_multi_enforce`, `solve_scipy` of solver_heat.py (Model/Entry.lean) | induction over the load cases; different Dirichlet sets refuted for the shared factorisation |
| C130 | both update rules and whole runs with an arbitrary rounded arithmetic and explicit NaN (Model/Rounded.lean); laws in Spec/Rounded.lean | clipping lemmas, driver invariant over histories; exact arithmetic shown to give the real-number model |
| C131 | the same | sign and finiteness laws carried through the formula; invariant over runs |
| C132 | bisection and dual update in rounded arithmetic | induction on the remaining iterations |
| C133 | the schedules with every operation rounded to the nearest double and CPython's floor division (Model/SchedFloat.lean); the rounding in Spec/SchedFloat.lean | error analysis; the floor division is proved exact; the step number is decided by an integer argument; refuted where the step length is rounded up |
| C134 | the same, sawtooth | error analysis of the local index; refuted with the default arguments |
| C135 | the same, all stepped types | exactness of the rounding on representable numbers; refutation by exact evaluation in doubles |
| C136 | projection and its derivative in rounded arithmetic (Model/RoundedMaterial.lean); what is asked of rounding, `tanh` and `cosh` in Spec/RoundedMaterial.lean | monotonicity of the rounding between representable numbers; oddness of rounding and `tanh` gives `tanh(beta eta) + tanh(beta (rho - eta)) >= 0` exactly |
| C137 | SIMP and RAMP laws and the SIMP sensitivity in rounded arithmetic (the same files) | step by step between representable numbers; at the top only the bound `2 E0` is proved |
| C138 | `build_filter_matrix` (normalisation) and `forward` in double precision (Model/RoundedRun.lean) | partial sums kept below multiples of `2 ^ -51`, which are representable, so that no error analysis of single additions is needed; exceeding 1 by exact evaluation with round to nearest |
| C139 | the iteration from densities to densities in double precision (Model/RoundedRun.lean) around the update of C131 | interval arithmetic on powers of two for every operation, then C131's update and the driver invariant |
| C140 | lines 127–225 of `rho_update` (volume chain, normalisation, multiplier, Lagrangian, running scale) and `lagrangian_log_update` in double precision (Model/RoundedLog.lean) | bounds by powers of two along the computation; the invariant of the run is a finite multiplier and a running scale in `[2 ^ -41, 2 ^ 886]` |
| C141 | the `prange` loops of mesh/utils.py:94–127 and fea/composer.py:149–161, 251–311 as programs of atomic reads and writes of a shared array, run under an arbitrary schedule (Model/Parallel.lean) | an invariant of every schedule (what remains to be done, run alone, gives an iteration's own cells their final contents) from disjointness of the cells; termination by counting turns |
| C142 | the properties with setters of `LinearElasticity`, `n_tasks`, `design_mask` (Model/Attributes.lean) | induction over the assignments; sorted-list characterisation of the mask; false parts refuted |
| C143 | `toy_msh` up to `from_facets`, with ranges that may be wrapped in a tuple (Model/ToyMsh.lean) | evaluation with the selection lemma `satisfying_pairs`; false parts refuted |
| C144 | `skfem.Basis` with `ElementVector(ElementTetP1())` and `ElementVector(ElementHex1())` (Model/FEBasis.lean, from skfem's documentation: reference mapping, shape functions, two-point Gauss rule), on top of Elastic and BoxMesh | zero strain in an element means its corners move rigidly (simplices: the gradient itself; boxes: trilinear fields on a 2×2×2 grid); a skew matrix that vanishes on a side is zero, so joined elements move alike; the grid of `init_tensor` is connected; one point per hexahedron does not suffice (hourglass mode) |
| C145 | `skfem.Basis` and `FacetBasis` with `ElementTetP1()` and `ElementHex1()` (Model/HeatBasis.lean), on top of Heat and RunHeat | zero gradient at the integration points means equal corner temperatures (simplices: barycentric coordinates; hexahedra: trilinear fields on a 2×2×2 grid), hence constant pieces; a positive cooled surface point forces the constant to 0; the energy of a balanced field vanishes; one point per hexahedron does not suffice |
| C146 | `assemble_surface_neumann` (Model/HeatSource.lean) | list cases; exchange of sums and partition of unity |
| C147 | `toy2` (Model/Toy2.lean; facet numbers per element side, `with_boundaries` from skfem's documentation: surface facets only), tags by Load | coordinates of side midpoints on the 27 × 27 × 4 grid; sides in the planes x = 0, 8 belong to one element; supports contain three points not on a line (C144) |
| C148 | `compute_filter_gradient_matrix` (Model/Jacobian.lean) next to the element filter object (FilterElement); exact LU is a hypothesis | linearity of the exact solve; C29 (maximum principle, volume), C31 (adjointness) column by column |
| C149 | `str2bool`, `float_or_none` (Model/CliValues.lean); `float` is an arbitrary function, `lower` on ASCII letters | characterisation of texts that lower to a word, by induction over the text; case split |
| C150 | step schedules with a `float` number of steps, NaN and infinities included (Model/SchedFrac.lean) | floor arithmetic over the reals; agreement with Model/Scheduler.lean for whole numbers |
| C151 | the same heat run with all temperatures shifted | shift of the heat balance by partition of unity, uniqueness of its solution, simulation of twin runs; exact change of the sensitivities of the compliance, and a case where it is not 0 |
| C152 | the same run with the load cases listed differently | means over equally large fibres; uniqueness of the state; simulation of twin runs |
| C153 | the driver with two recording intervals, any update rule, calls after exceptions included | functional simulation: the runs differ in the file list only |
| C154 | the scheduler classes' constructors and Python's argument binding (SchedClasses) | attribute-by-attribute equality with the configuration API, staircase law, errors of unchecked arguments |
| C155 | the calls that configure a PETSc solver, over an arbitrary library with an option database (Petsc) | where each setting comes from; induction over the columns; refuted for petsc_spdirect under a database entry and for load cases alone vs among others |
| C156 | the bars and wedges of the timer's charts, from its statistics (Chart) | induction over segments, with C48's nesting theorems; refuted for inner sections, self times and default pies |
| C157 | the same heat run with temperatures times t and conductivity and film coefficient times b (HeatUnits) | linearity of the heat balance and uniqueness of its solution, homogeneity of percentile, scaling and bisection, simulation of twin runs (OC and LogMOC); the weighted heat_exchange value adds quantities of different units and is excluded |
| C158 | the same heat task with nodes or elements renumbered (HeatNumbering, HeatElements, HeatElementsLog) | reindexing of sums by the bijection, uniqueness of the temperatures, simulation of twin runs; runs under renumbered elements by relating both to an elasticity problem without dofs (Relabel, RelabelLog); refuted for elements by two rods held at one end |
| C159 | the choice of interpolation and whole runs with the RAMP law on heat tasks (Model/RunHeatRamp.lean) | the generic run lemmas with the RAMP heat balance; the derivative claim is refuted at solid elements by computing both slopes |
| C160 | `nodes_and_elements_stats`: nearest-neighbour distances, their statistics, the volume bars (Model/Stats.lean) | sorted lists: the second entry is the distance to the nearest other point, also for coinciding points; the median halves the list; bars as finite sums; the missing group and the one-element mesh as refutations |
| C161 | the element values of heat analyses for one and several load cases (Model/HeatValues.lean) | induction over the loop that fills the columns; the finite element sums rearranged; on simplices the Jacobian is constant and the rule integrates the shape functions to `1/(d+1)` of the volume |
| C162 | the same heat task with all lengths times s (HeatLengths) | the assembled conduction, surface and interface terms share one factor, so the temperatures are the same by uniqueness; filter, threshold and OC/LogMOC updates by relating both runs to elasticity problems without dofs (Relabel, RelabelLog); the objectives compliance and heat_exchange with Robin boundaries contain absolute thresholds on density gradients and interface sizes and are excluded from the claim about runs |
| C93 | the nodal Helmholtz filter with the finite element matrices of unit cubes | discrete maximum principle; refutation by an explicit exact solution on four cubes |
| C77, C78, C80, C81 | whole OC runs with either filter and either form of `eta`, restarted runs | refinement of the documented algorithm (`Spec/Run.lean`, `Spec/Trajectory.lean`) by induction over calls |

No property of the list is outside the model; where a statement is only partly proved, `MANIFEST.json` says why.

## 5. Findings (properties of the code that are false, with kernel-checked witnesses)

The theorem names are in `MANIFEST.json`. The most important ones: the sawtooth schedule does not reach its target (C07); the derivative of the
RAMP law is wrong (C26); the element Helmholtz filter uses the fourth power of the radius between elements (C30), and neither Helmholtz
gradient is the adjoint of the forward map (C31, C56, C72); a restarted run differs from an uninterrupted one through `running_scale` (C40), a
LogMOC run cannot be restarted faithfully (C54); a recording frequency above the number of iterations divides by zero (C38); hexahedron volumes
and orientation are wrong (C44, C61), hexahedral adjacency uses another vertex order (C57); unconverged iterative solves go unnoticed (C67);
heat: averaging pairs densities with the wrong vertices (C52), only the first Dirichlet region is enforced (C82), sensitivities belong to
another objective or have the wrong sign (C84), `design_robin_boundary` has no effect (C85); the default command line is rejected (C53);
heat `averaged_temp` is a sum (C88); element stresses are integrals (C91); an imported configuration cannot be used (C92);
LogMOC with the default filter uses a wrong volume derivative (C55); heat runs: OC with a spatial filter,
Robin boundaries and the compliance can compute NaN (C103), the objective setting does not steer the design between averaged_temp and
heat_exchange (C104), without Robin boundaries densities just fade uniformly (C105), `design_dirichlet=True` makes everything solid (C106); the exported final mesh shows design densities above 1/2 instead of the physical design (C108); OC with the RAMP law, the spatial filter and a solid start computes NaN (C109); `scaling=True` reads `filter_radius` in units of the bounding box and, for one load case, divides the sensitivities by the number of degrees of freedom (C110); the toy cantilever is loaded on faces inside the body (C112); the default filter leaves [0, 1] for radii below about 0.4 element edges (C93).

`condition.vtu` paints every node of an elasticity task as a Robin node (C114); adjacency matrices hold counts (C113);
the element filter with "cg_jacobi" answers zeros on fewer than four elements and raises on four to seven (C123);
`histories.npz` is written only when a run is completed, so a process that stops early loses its lines (C121); snapshots and histories
are written in place, so a kill during a write blocks every later restart (C124);
if `intorder=1` (accepted by `basis_from_file`, used by the heat tutorial and `test_global_flow`) means one integration point, hexahedra have hourglass modes, so clamped bodies have singular systems (C144);
Hexahedral mesh files have twisted cells (C118); `load_stiffness_matrix` passes E and nu as Lame constants (C119);
`SCITOPT_SENSITIVITY_MODE` is guarded (C115) and parsed (C26) but the parsing function has no caller, so no value of it matters.
The last objective value in the histories (and the last mesh file) belongs to the design before the last update, not to the one returned (C125).

Every call of `sktopt.fea.solver.solve_multi_load` and `compute_compliance_basis_multi_load` raises TypeError: they pass `n_joblib` to functions without that parameter (C126).

`allow_fallback_to_spsolve` of a given `LinearSolverConfig` is ignored by `compute_compliance_basis` (C127). `solve_multi_load` returns the compliance instead of the load vectors when there is one load case (C128). `solve_scipy` of the heat module is wrong for load cases with different Dirichlet nodes (C129).

In double precision the sawtooth schedule with its default arguments (100 iterations, 6 cycles) misses its restart at iteration 51 and has its
target value there, because 100/6 is rounded up and `50 // (100/6)` is 2 (C134); Step schedules begin such a step one iteration late (C133). The filtered density of a solid element can be `1 + 2 ^ -52` (C138).

With Robin boundaries the sensitivities of the objective "compliance" depend on the zero of the temperature scale: kelvin and degrees Celsius give
different designs (C151).

Repeating the only load case of a heat task changes the recorded objective "heat_exchange" with a weight on the temperature (C152).

The text "+nan" of a number-or-nothing option becomes NaN instead of nothing (C149), and a NaN number of steps raises only at the first iteration (C150).

`force_nodes` of an elasticity task reads the loaded elements, and `tsk.force = tsk.force` turns one task into as many as there are degrees of
freedom (C142); the predefined problems "pull" and "pull_2" raise on every mesh, because of a trailing comma (C143).

`Scheduler.from_config` is a class method that only works on the base class: called on any of the seven subclasses it raises TypeError (C154).
The solver "petsc_spdirect" insists on a direct method in its options but then lets PETSc's option database replace it (C155).

The timer's stacked bar chart leaves out sections two levels down and, with self times, subtracts children twice; the default pie counts nested time
repeatedly under the title "self-time" (C156).

With Robin boundaries the result of a heat analysis depends on the numbering of the elements (solver_heat.py 600–613,
729–737): `np.repeat(rho, k)` is ordered element by element but `t.ravel()` vertex by vertex (C158).

Heat runs with `interpolation="RAMP"` solve the heat balance of the RAMP conductivities but differentiate the SIMP law
(solver_heat.py 943–947): at solid elements the sensitivity is `p/(1+p)` of the derivative (C159).

`nodes_and_elements_stats` (task_common.py 484–488): without Neumann facets the bar "force" shows the volume of the whole mesh, since
`elements_volume[None]` keeps every element; a mesh of one element raises ValueError (C160).

## 6. Testing the theorems

Realistic bugs are seeded into a scratch copy of the model (wrong boundary, swapped argument, dropped update, wrong index, missing case), one
at a time, and everything is rebuilt. If no theorem of a claim the edit breaks fails, the theorem is tightened. `seeded/LOG.jsonl` has one line
per edit: definition, edit, claims broken, theorems that failed, theorems tightened. Edits that do not change behaviour are marked as
equivalent.
