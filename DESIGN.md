# TrussPy formal model: design

Subject: `adtzlr/trusspy` 3.0.1, source in `/repo/src/trusspy`. Model and proofs: Lean 4.33.0 + Mathlib, under
`/verif/lean/Verif/`.

## Approach

* **Shallow, branch-by-branch model.** Each Python function is a Lean function that returns `Py α = Except Err α`
  (exceptions as values). In-place mutation becomes state passing. `while` becomes a function with fuel whose exhaustion
  is the special value `Err.outOfFuel`; termination theorems show an explicit fuel bound that is never exhausted.
* **Numbers.** Code is modelled over an arbitrary carrier `F` with the *lawless* operations `+ - * / neg 0 1` and the
  class `Flt F` (abs, `<`, `<=`, sign with a NaN case, sqrt, truncation). Control-flow theorems (newton, pathfollow,
  run, supports, results) are proved for every such `F`, hence use no rounding law and apply to IEEE doubles (an
  instance `Flt Float` is given). Theorems about mechanics (equilibrium of forces, Jacobian, plasticity, bounds on step
  width) are proved for the instance `F = ℝ`, i.e. for exact arithmetic; floating point rounding is *not* modelled there.
* **External code as parameters.** `scipy.spsolve` is an arbitrary function parameter (no correctness is assumed unless a
  theorem says so). `np.argsort` is an arbitrary function; where its result matters a theorem assumes `IsArgsort`
  (returns a permutation that sorts) and an instance is exhibited. Residual `g` and Jacobian `dgdx` of `pathfollow` are
  arbitrary (possibly raising, state-mutating) functions.
* **Specifications** used in theorem statements are in `Spec*.lean`/at the top of the theorem files and are separate
  from the model's helpers. Property theorems are in `Verif/Props/*.lean`, helper lemmas in `Verif/Lemmas/*.lean`.
* **False properties.** Where the code violates the English property, a `*_counterexample` theorem proves the violation
  on the model, and a `*_partial` theorem proves what does hold. They are listed under *Findings*.

## Modules

| module | content |
|---|---|
| `Verif/Base.lean` | exceptions, `Flt`, NumPy primitives (`where`, `take`, `delete`, `vstack`, `isin`, `allclose`, python indexing) |
| `Verif/Handlers.lean` | `core/{node,boundary,external_force,element}.py`, `handlers/handler_{node,boundary,extforce,element}.py` |
| `Verif/Caught.lean` | handler methods and `Model.build` again, with the state they leave behind when they raise |
| `Verif/Interrupted.lean` | `Model.run` again, with the state it leaves behind when it raises |
| `Verif/Material.lean` | `materials/material_definition.py` |
| `Verif/Build.lean` | `core/analysis.py`, `handlers/handler_settings.py`, `Model.build` |
| `Verif/Equil.lean` | `elements/element_definition.py`, `Model.equilibrium`, `Model.stiffness` |
| `Verif/Solver.lean` | `solvers/zerosearch.py`, `solvers/tpsolver.py` |
| `Verif/Run.lean` | `handlers/handler_result.py`, `Model.run` |
| `Verif/Plot.lean` | data selection of `tools/plot_utilities.py`, `tools/helper_functions2.py`, `tools/movie_generator.py` |
| `Verif/Draw.lean` | drawing commands of `plot_model`, axis of `plot_path` (`tools/helper_functions2.py`) |
| `Verif/Report.lean` | `Model.run` and the solvers again, with every `print` call |
| `Verif/Log.lean` | `sys.stdout` redirection in `Model.__init__`/`Model.run` |
| `Verif/Heap.lean` | object identity: objects, arrays, views, aliases, in-place writes, deep copies |
| `Verif/Instances.lean` | `Flt` for exact reals, rationals, rationals with NaN, IEEE doubles; a reference `argsort` |
| `Verif/Spec/*.lean` | vocabulary of the theorem statements: sums, free body equilibrium, one-dimensional plasticity, converged points, ... Independent of the model's helper functions |
| `Verif/Lemmas/*.lean` | helper lemmas |
| `Verif/Props/*.lean` | the property theorems `CNN_...` with their concrete cases |
| `Verif/Examples*.lean` | concrete structures and problems used by the cases |

## Plan per property

| id | modelled | proof idea |
|---|---|---|
| C01 | handler_node, build | joint permutation by argsort; `take` of labels and rows gives a permutation of the pairs |
| C02 C03 | fix_bounds_U, fix_forces, allclose check | filling gives a superset of the labels; accepted => same length => permutation; look-up by label |
| C04 | build | C01-C03 determine the tables as functions of label => permutation invariant |
| C05 | allclose check | length + superset + nodup => permutation => equal sorted lists |
| C06 | nproDOF0/1 | index characterisation of `flatten`/`where` |
| C07 | build twice | built tables are sorted and complete, so fix_* are the identity |
| C08 | build error branches | evaluation of the error paths, for all other tables |
| C09 C10 C11 C12 | handlers | list lemmas; counterexamples by evaluation; refinement to a label-indexed map |
| C13-C20 | umat_* over ℝ | algebra of the return map; induction over strain histories; HasDerivAt |
| C21-C25 C28 C29 | truss, equilibrium, stiffness over ℝ | induction over the element loop to a sum; algebra per element |
| C26 C27 | stiffness vs equilibrium over ℝ; `setStep`, the analysis objects within a step (`InStep`) | Frechet derivative of `N n` per element, chain rule over scatter/assembly; the column `f0red` is that of the loads of the step throughout the step (`InStep.ready`, `C27_step_jacobian`, `C27_states_of_step`, `C27_next_step`) |
| C30 C31 C40 C44 | equilibrium inside pathfollow/run, any F | invariants of the analysis state preserved by every evaluation |
| C32 C33 | newton, any F / ℝ | induction over iterations |
| C34 C35 C38 C39 C45 C46 | pathfollow, any F (C35, C45: ℝ) | invariant over increments, case analysis of the recycle loop |
| C36 C37 | recycle loop, dxmax_control over ℝ | lexicographic measure (remaining reductions, cycl - z) |
| C41-C43 C47 | run | induction over steps |
| C48-C51 | plot data | index lemmas; string order of padded numbers |
| C52 | stdout machine | induction over well-nested schedules |
| C53 | heap of analysis objects | frame property: writes only touch the live object |
| C54 C55 | umat selection in the loop, Element ctor | evaluation; counterexample |
| C56 | equilibrium, stiffness, any F | every look-up of a well-formed structure succeeds |
| C57 | contour limits over ℝ | maximum of absolute values |
| C58 | energy of elastic bars, residual over ℝ | derivative of the stored energy, chain rule through the displacement table |
| C59 | quadratic form of the reduced stiffness over ℝ | sum over bars, Cauchy-Schwarz, sign of the material tangent |
| C60 | stiffness blocks and internal forces over ℝ | product rule for ω × (dir · N), per bar |
| C61 | input calls, build, tables | closed form of the built tables; one bar per element by induction over the calls |
| C62 | build, run, Newton's method | last evaluation of Newton's method and the commit return the same residual; component below norm |
| C63 | run, internal forces over ℝ | free bodies: internal forces of all nodes cancel; split of the residual into active and supported components |
| C64 | input to end of run, any F (step control: ℝ) | every look-up succeeds (C56), sizes are invariant, number of attempts bounded (C36) |
| C65 | input to end of run, any F | renamed tables look up the same rows, hence the two residual functions and all tables are equal |
| C66 | input to end of run, any F | the step loop as a relation; its first steps transfer to the shorter analysis (same residual function, same load slices, same control data) |
| C67 | input to end of run, any F | the increment loop does not look ahead (induction on increments left) |
| C68 | run, any F | increments as paths; counterexample computed in the kernel |
| C69 | build and run, any F | first entry is kept by all later steps (C41) |
| C70 | newton, f, dfdx, equilibrium, stiffness over ℝ | the residual is continuously differentiable with the stiffness as derivative (C26, C27), hence nearly linear near z; each iteration halves the residual and stays in the ball |
| C71 | increment of pathfollow over ℝ | the predictor is the tangent of the path; scaling by its largest relative component gives a start vector whose residual is o(t); regularity carries over to the new control component; then C70 |
| C72 | build, stiffness over ℝ, for the input entered by the user | the tangent is the Gram form of the bar elongations weighted by EA/L (stress-free), so its kernel is the set of inextensional allowed velocities; numbering of the free components maps velocities to vectors bijectively |
| C73 | build and run, first increment of the first step, over ℝ | undeformed state is an equilibrium at load factor 0, C72 gives regularity, C71 the acceptance; the records of run start with that increment |
| C74 | p_model, plot_force, plot_nodes, plot_elems as lists of drawing commands, any F | induction over the loops; the parts of the command list are separated by kind |
| C75 | limits in plot_elems; matplotlib's automatic limits are a parameter | every arrow comes with a transparent line; interval widened about its centre; counterexample for z evaluated in the kernel |
| C76 | contour selection in p_model, loop and colour bar of plot_elems, any F | case analysis of the arguments, k-th pass of the loop reads row k |
| C77 | plot_pth: abscissae and ticks | the two branches; a range equal to range(min, max+1) is ascending |
| C78 | calls before build / before run, preview | build_ready gives the explicit state after build; the zero displacement, unit load factor and the sorted consecutive tables reduce the picture to the input |
| C79 | no exception in any picture of a run | sizes of all recorded objects (run_sizes, Steps.consts) imply CanDraw; drawModel_total and pModel_total run through every branch |
| C80 | which names are rejected | hasSub is Python's in (hasSub_iff); Asks and Rejected classify all names; first evaluation of quantity raises |
| C81 | evaluations and extended system under conversion factors | evaluation in closed form (C23 lemmas) commutes with scaling; law by cases; for the test: norm of the converted residual as a function of the factor |
| C82 | `pltCall`, `pExtforces`, `addBoundT`, `addBoundsT` (with the state left behind by an exception) | by cases; induction over the calls |
| C83 | `Analysis.getU`, `Analysis.getR` on the results of `Model.build` and `Model.run` | sizes (`Inv`), C44's consistency, and an invariant of the increments: nothing writes `rred` |
| C84 | `resOp`, `resOps`, `getResult` | induction over the calls |
| C85 | `Solver.dxmaxControl`, `attempt`, `recycle`, `pathfollow` (real numbers) | the log of all passes (`Spec/Width.lean`) exists for every completed run and keeps the invariant: the counter is at most the number of acceptances since each reduction, or the width is at its cap |
| C86 | `Model.build`, `Model.run`, `pathfollow`, `equilibrium`, `stiffness` (real numbers) | simulation: two runs are compared step by step (`Spec/Mirror.lean`, `Spec/Congruent.lean`): evaluations of mirrored bars, sums over reordered elements, Newton iteration, control component, path following, step loop, build |
| C87 | a second model of run, pathfollow, dxmax_control and newton with their print calls (`Verif/Report.lean`) | erasure: the value of every printing function is that of the silent one, by induction over the loops; `C87_zero_reduce_later` is an equivalence |
| C88 | text as a list of lines; specification `Reports` compares its projections with the increments recorded by the path-following calls of the run (`RunCalls`) | induction over increments and steps (`incrLoopP_text`, `Reports.snoc`), combined with C34 |
| C89 | `Line.level`, `Line.Shown` | predicate on all lines of a text, proved through every function of the printing model |
| C90 | `initText`, `Model.buildP`, `Times` | direct; no other function prints fences or durations (C89) |
| C91 | `dxmaxControlP` | case analysis over its branches |
| C92 | `Model.build`, `Model.run`, material law and state rows | C26 (states change only in accepted increments) and C62's bar results feed the return map lemmas of C19/C20 (`step_ok`, `flow_dissipates`); induction over the recorded increments |
| C93 | `Model.build`, `Model.run` and the spec of C62 (`Meant`, `totalLoad`) | summation by parts over nodes and bars (`internal_work`) on C62, with C92_perfect_plasticity for the bars and `RunCalls.unique` to identify both descriptions of the run |
| C94 | `equilibrium`, `stiffness`, `truss` | C23's sums over bars; the sums are regrouped by the share map (`Bundled.sum`) |
| C95 | handler calls and `Model.build` | the tables of a built model are those of the completed, sorted input (`built_complete`); the edits act on them as on lists (`nodeOps_tab` ...); equal meaning gives equal models (`build_same`) |
| C96 | handler calls with the state left behind when they raise (`Verif/Caught.lean`) | counting labels and rows over the session; `take` in `build`, `np.where` in `equilibrium` index past the rows |
| C97 | `build` with the state left behind (`Verif/Caught.lean`), shown to return and raise what `Model.build` does | `left_tables`: the tables after `build` are a reordering of the completed input; then as C95 |
| C98 | `Verif/Report.lean` (all print calls), specification of the tables in `Spec/Rows.lean` | the text of every loop is decomposed along its executions; the rows are tied to the residuals by the trace of Newton iterations (`Iterates`) |
| C99 | `pathfollow` on `modelProblem`; the path is specified in `Spec/Follow.lean` by the equilibrium equations only | compactness of the path gives one radius and one bound for the inverse of the extended matrix along it (`path_tame`); Newton's quadratic contraction is recentred at every increment; residual tolerance bounds the distance to the path, so errors do not accumulate |
| C100 | `pathfollow` on `modelProblem (vmCtx w H E A)`; the load of statics is `vmLoad` in `Spec/Snap.lean` | the graph of the load over the displacement is an equilibrium path in the sense of C99; regularity of the extended matrix needs the load only |
| C101 | calls, build, run; equilibrium path in terms of node labels (`Spec/Trail.lean`) | the entered path is carried to the degrees of freedom of the built tables (`LaidStep.path`), where C99 applies; `run` around the call as in C73 |
| C102 | `pathfollow` with predictor and free control component; the path as curve with nowhere vanishing derivative (`Spec/FreePath.lean`) | lower bounds of the extended matrices common to all components that move (compactness); the predictor gives the tangent; the largest relative component of the tangent becomes control component with the sign of its motion; Newton converges from the predictor (`Lemmas/AutoBound`, `AutoStep`, `Auto`, `AutoLoop`) |
| C103 | `build`, `run`, `pathfollow`, `newton`, elements | `Spec/FreeTrail.lean` states the path on the entered data; `Lemmas/FreeTrail.lean` turns it into a `FreePath` of the built tables (kernel vectors of the extended matrix are first-order equilibrium motions) and applies C102; results by `run_shows` |
| C104 | `Spec/LoadPath.lean` (`linearPull`, `LinearSolution`: linear truss theory in terms of the calls), `KinematicallyStable`, `StiffElems`, `FreeTrail`, run theorems C101 and C103 | `Lemmas/Curve.lean`: inverse function theorem gives a curve on which the residual grows in a given direction; applied to the system of the built model, regular at the undeformed state by C72; vectors are translated back to displacement fields (`fieldOf`); derivative of the equilibrium equations at the undeformed state is linear truss theory (`pull_deriv`) |
| C105 | `Spec/Inexact.lean` (`SolvesWithin`, `FollowsRoughly`), `newton`, `pathfollow`, `Model.run` | inexact Newton steps contract by 3/4 (`Tame.inexact`); each increment is recentred at the path point whose control component is the one aimed at, so only the parameter drifts |
| C106 | `Spec/Stages.lean` (`HeldTrail`, `Stages`, `FollowsStages`), step loop of `Model.run`, `setStep`, `pathfollow` | `Lemmas/Rough.lean` follows a path of a nearby load case; `Lemmas/Held.lean` lays out the held loads; `Lemmas/StagesRun.lean` carries load factors, displacements and residual through the steps by induction |
| C107 | `Props/PlasticPath.lean` (`ElasticTwin`), `BelowYield` in `Spec/Trail.lean` | `Lemmas/Calm.lean`: near a state below yield the plastic law coincides with the elastic one and keeps its state variables, so the linearised system is that of the elastic truss; with it the path theorems C99 to C106 hold for plastic elements below yield; the path of the twin is a path of the truss (`Trail.plastic`) |
| C108 | `Spec/Drive.lean`: displacements, strain histories, return mapping along them, internal force and load factors; nothing of the solver | `Lemmas/OneDof.lean`: with the displacement prescribed the residual is affine in the load factor, so Newton's method hits the prescribed value in the first and the equilibrium in the second iteration, whatever the material does; `Lemmas/Drive.lean`: induction over increments and steps, with the state variables as part of the invariant |
| C109 | `Spec/Rounded.lean`: `Rounds` (number format), `ComputesNear` (rounded residual and derivative), `SolvesNear` (rounded linear solver); `newton` is the model function for arbitrary `F` | `Lemmas/RoundNewton.lean`: each pass reduces the exact residual by 3/4 up to a constant times eta, the rounded norms are within their rounding errors of the exact ones. Example: square root of 2 in fixed-point arithmetic (`ExamplesFix.lean`) to any accuracy |
| C110 | `Bar.eval`, `equilibrium`, `stiffness` over an arbitrary number format with `Rounds val δ`, against the same definitions over ℝ | every operation multiplies the accuracy constant by a fixed polynomial (`lev`); `eval_close`, `trussK_close`, sums over bars by induction (`addBars_close`, `addBarsK_close`), then the reduced vector and matrix |
| C111 | `pathfollow` with `modelProblem c` over any number format with `Rounds val δ`; the exact structure over ℝ (`StandsFor`) | constants along the path by compactness (`path_reach`), `model_near` (C110) turns the assembled system into one that `newton_rounded` (C109) can solve, `round_increment`, `round_loop` by induction over increments |
| C112 | `Ieee`: nearest numbers with `p` binary digits, `SquareSum` for the norm | distance to the next number by `Int.log`, error of sums by induction over the way they were computed (`squareSum_error`), root (`sqrt_error`); then the requirements of `Rounds` one by one |
| C113 | entered data and their image in real numbers (`UserInput.image`), `FollowsClosely` for the results | the tables built from the data and those built from the image stand for each other (`stands_for`), so C111 applies; the stored results by `run_records` |
| C114 | `NonFinite bad`: the properties of IEEE 754 used; `Unusable`: data that leave the force of an element undefined | a bad element force makes a bad entry in the assembled vector at each active component of its ends (`NonFinite.assembled`), later elements and the load do not remove it, so the norm test fails; every accepted increment passed the test (`run_tested`) |
| C115 | `Args.lean`: arguments as Python objects, lists by reference, the comparison with `[np.nan]` | case distinction; induction over the actions of the program for the default lists |
| C116 | `Spec/Converge.lean` (`Shrinks`), `Spec/FreeTrail.lean` (`DigitsAllowed`) | the residual is twice continuously differentiable, so the linearisation error is at most Λ·dx² in a ball around the solution (`Quad`, on paths by compactness); each iteration maps a residual r to at most min(r/2, D·r²) (`decay`), and the decay is carried through the proofs of C99, C101–C103 and C106 |
| C117 | `Model.build`, `Model.run` with several steps, loads held from earlier steps; response function of the entered structure (`Spec/History.lean`) | inverse function theorem for the built system gives the response (`Lemmas/History.lean`); load steps are joined equilibrium paths, then C106 |
| C118 | `Model.runC`: `run` with the state left behind (`Interrupted.lean`), agreeing with `Model.run` | the step loop is cut at the first step that raises; the earlier steps do not look at the number of steps; then C07 |
| C119 | `storedEnergy`, `plasticWork`, `turnError`, `ActingLoads` (`Spec/Work.lean`) | virtual work (C93) of both results on the displacements between them, the identity for the scalar product of two axes, C92 for the sign of the plastic work, telescoping sum |
| C120 | `SplitPairs`: the two analysis objects during a run agree except for element lists, load factor and extended vector (a model without state variables does not write these two during evaluations) | `modelProblem_split` with the lemma on related problems of C86 (all signs one), records compared through the load factor in the solution vector |
| C121 | `Elem.SameUse`, `UserInput.SameFreeLoads`, `SameButSupports`; the analysis objects of both runs agree up to `g` and the stored loads (`Reloaded`) | `modelProblem_sim` with a general simulation lemma of the solver (`pathfollow_sim`), then step by step (`steps_agree`) |
| C122 | `Symmetry` on the entered data, `Analysis.Symmetric` on results, `UniqueSolver` on the solver | the bordered linear system with a regular, invariant matrix has an invariant solution (`symmetric_solution`), so all vectors of the solver and all analysis objects stay symmetric (`Problem.Keeps`, `pathfollow_kept`, `modelProblem_symmetric`); steps by induction (`symmetric_steps`); without uniqueness the claim fails: a computed run with an exact solver (`C122_choosing_solver_counterexample`) |
| C123 | `AddsHeld` on the entered data, `Analysis.SameApart` on results | marked entries of the evaluated bars (`evalAll_pick`), sums of forces and blocks agree at nodes without added elements (`RowsOff.fold`, `BlocksOff.fold`), so the callables return the same values (`apart_G`, `apart_K`, `apart_sim`), then the solver (`pathfollow_sim`) and the steps (`steps_apart`) |
| C124 | `WidthsOf`, `MovesBy` on two results in a row, `factorFrom` for the start of a step | every pair of results lies in one path-following call (`Steps.position`, `Steps.count`), then C34, C35, C37, C38 with the arguments handed over; the moving component from C35 |

No property is declared inexpressible; parts that live in the runtime are named in *Not modelled*.

## Trusted base

* Lean 4.33.0's kernel and Mathlib's definitions (reals, derivatives, lists, permutations).
* Axioms: every property theorem depends at most on `propext`, `Classical.choice` and `Quot.sound`. `AXIOMS.md` lists for
  each theorem of `MANIFEST.json` which of them it uses (output of `#print axioms`). There are no own axioms, no `sorry`,
  no `native_decide`, no `bv_decide`. Concrete cases are evaluated by the kernel (`decide +kernel`, `rfl`, `norm_num`).
* The correspondence between the Python text and the Lean model: read by hand, each definition cites its lines.
* The behaviour of Python and NumPy as encoded in `Base.lean` and `Handlers.lean` (indexing, broadcasting of `allclose`,
  `vstack`, dtype of property tables, exceptions). It could not be tested here against NumPy, because nothing was run.

## Modelled

* `core/node.py`, `core/boundary.py`, `core/external_force.py`, `core/element.py`: constructors, including the conflict of
  keyword arguments.
* `handlers/*.py`: all methods except the trivial context manager protocol (`__enter__`, `__exit__`) and the two uses of
  `add_increment`/`build_result` with arguments other than those of `Model.build`.
* `materials/material_definition.py`: both laws.
* `core/analysis.py`: `build`, `get_U`, `get_r`.
* `elements/element_definition.py`: `truss`, both stages.
* `model.py`: `__init__` (redirection of output), `build`, `run`, `equilibrium`, `stiffness`, the `plot_*` wrappers.
* `solvers/zerosearch.py` and `solvers/tpsolver.py`: `newton`, `pathfollow`, `f`, `dfdx` (residual and matrix with
  control equation), `dxmax_control`.
* `tools/plot_utilities.py`, `tools/helper_functions2.py`, `tools/movie_generator.py`: which numbers and which files are
  selected, in which order; the calls of matplotlib with their coordinates, contour values, limits and axis names.

Simplifications, stated again at the definitions:

* `ndim = 3` (the default). The element routine itself (`np.eye(3)`, `model.py:332`: `3*step`) only works with 3.
* Node and element labels are integers. NumPy would also take floats.
* Arrays of shape `(n, 3)` are flattened or lists of rows; element-wise code over fixed shapes is written per entry.
* In `Verif/Solver.lean` and `Verif/Run.lean` the log level only matters where it raises `TypeError` (`model.py:241`), and the
  `ZeroDivisionError` of `1 / reduce` is left out. `Verif/Report.lean` repeats these functions with every `print` call; C87
  proves that both agree unless step control is used with `reduce = 0`.
* `E.conn` is a list of labels; `truss` uses the last two.

## Not modelled

* Floating point rounding, except in C109–C113: theorems over ℝ are about exact arithmetic, theorems for every `F` need no such law,
  and C109–C113 hold for every arithmetic with small rounding errors, IEEE 754 doubles included.
* SciPy's and NumPy's algorithms: `spsolve` is an arbitrary function, `argsort` any function that sorts.
* Warnings (division by zero yields whatever `F` says; NumPy warns and continues).
* Wording, number formats and line breaks of the printed text (kinds of lines and the values in them are modelled in
  `Verif/Report.lean`); the measured times are arbitrary numbers.
* Matplotlib and imageio: what is done with the drawing commands (rendering, colour map, automatic limits, which are a
  parameter), line widths, text box, title, legend, image encoding.
* File system failures while writing log files and pictures, other than the ones named in C51.
* `Settings` attributes set by users to values of other types than documented, except where a theorem mentions them.

## Findings

Behaviour of the code that violates the expected property; each one is a theorem on the model (name in brackets).

* A single-node model accepts supports and loads of foreign or duplicate labels, because `np.allclose` broadcasts
  (`C02_single_node_counterexample`, `C03_single_node_counterexample`).
* Supports with a number of components other than three are accepted when every node is constrained, and then the wrong
  degrees of freedom are locked (`C06_width_counterexample`).
* Deleting the only displacement support raises, because `Uvalues` is one-dimensional after the first `add_bound_U`
  (`C09_single_bound_counterexample`).
* `del_element` leaves element and material types in place: later elements get the type of an earlier one
  (`C10_types_counterexample`).
* Property tables of integers truncate later assigned fractions (`C11_integer_table_counterexample`).
* Softening plasticity: a yield stress that has come down to exactly zero is taken for a virgin material
  (`C15_softening_counterexample`).
* `cycl <= 0` without step control, or `reduce <= 1` with it, can loop forever (`C36_cycl_counterexample`,
  `C36_reduce_counterexample`).
* The documented bounds `minfac*dxmax0 <= dxmax <= maxfac*dxmax0` are violated on both sides (`C37_minfac_counterexample`,
  `C37_maxfac_counterexample`); `C37_step_width` gives the bounds that hold.
* A model run with `nsteps = 0` leaves two results (`C41_no_steps_counterexample`).
* A step without increments makes the constant load of later steps wrong (`C42_empty_step_counterexample`).
* If the predictor alone already meets the tolerances, the increment is recorded without the displacement it was accepted
  for, without a commit of state variables, and with inconsistent force data (`C45_predictor_keeps_vector`,
  `C44_predictor_counterexample`).
* `nfev = 1` with predictor raises `UnboundLocalError`; a model without free degree of freedom raises `IndexError`; NaN in the
  control component raises `ValueError` (C46).
* Running twice without building again corrupts the result list (`C47_rerun_counterexample`, `C47_rerun_loses_history`).
* Model plots index nodes by `label - 1`: wrong bars or `IndexError` for labels that are not `1..n`
  (`C48_wrong_nodes_counterexample`, `C48_large_labels_counterexample`).
* `plot_model(inc)` counts from the end twice below `-len(R)` (`C49_counts_twice_counterexample`).
* `State Variable` curves are indexed by node although the rows belong to elements (`C50_state_variable_counterexample`).
* Movie frames are out of order from increment 1000 on (`C51_not_in_order`, `C51_order_counterexample`).
* Standard output stays redirected for interleaved models, if `run` raises, or if a model is never run
  (`C52_*_counterexample`).
* A recorded result passed as `analysis` to `equilibrium` or `stiffness` becomes the live object and is overwritten
  (`C53_adopted_result_counterexample`).
* An unknown material type silently reuses the law of the previous element (`C54_unknown_type_counterexample`).
* A step which ends with ERROR 1 or ERROR 2 does not end the run: its unconverged iterate is recorded and is the start of the
  next step (`C68_run_continues_counterexample`).
* `R[0]` records the stretch 0 for the undeformed structure (`C69_stretch_counterexample`).
* With a single node the order of two loads on it is seen in the load table (`C04_single_node_counterexample`); with duplicate
  node labels and an unstable sort every `build` can exchange nodes (`C07_unstable_sort_counterexample`).
* In the 3-d view the limits of z are taken from those of x and y, so tall structures are cut (`C75_height_counterexample`).
* `cbar_limits=None` never works with a contour (`C76_no_limits_raises`); an unknown view raises `UnboundLocalError`
  (`C74_unknown_view`); six limits in a plane view raise `TypeError` (`C75_six_limits`); `plot_model(view="3d")` leaves an extra
  empty figure (`C74_space_picture`).
* `assign_geometries` with a list which is too short silently leaves the last elements unchanged
  (`C11_short_list_counterexample`).
* `equilibrium()` and `stiffness()` raise `AttributeError` between `build` and `run` (`C78_before_run`).
* A misspelt quantity in `plot_history` or `plot_path` is drawn as NaN without any message (`C80_unknown_name_is_nan`).
* Whether the solver accepts a state depends on the unit of force, because the tolerance is absolute (`C81_tolerance_has_units`).
* `plt_nodes`, `plt_elements`, `plt_extforces` always raise (`C82_plt_never_succeeds`); thermal supports cannot be entered,
  because `Tnodes` is never created and `BoundaryT` has no attribute `node` (`C82_no_thermal_supports`,
  `C82_boundaryT_never_accepted`).
* `get_r(red=True)` returns zeros for every result (`C83_reduced_forces_never_set`).
* A log file with log level 0 or 1 begins with a single code fence, so all of it is rendered as code (`C90_fences`); the labels
  of the durations are exchanged (`C90_durations`).
* Log level 0 is not silent: changes of the step width, recyclings, what a step takes over from earlier ones, failures and
  reached limits are always printed (C89). A reduction of the step width is first announced as inactive
  (`C91_inactive_message`), the return to the greatest width not at all (`C91_width_messages`).
* "Job stopped" is printed although all later steps are run (`C88_error_messages`).
* Step control with `reduce = 0` raises `ZeroDivisionError` from a print call (`C87_zero_reduce`, `C87_zero_reduce_later`).
* `build` leaves a row for every node in the support and load tables. Adding a support or a load to a node of a built
  model is therefore refused by the next `build`, even if the node had none (`C95_second_support_rejected`,
  `C95_second_load_rejected`), and so is the deletion of a node alone (`C95_deleted_node_rejected`); the rows have to be
  deleted first (`C95_change_load`, `C95_change_support`).
* A handler call that raises has already appended its label. If all support calls but the first raise, `build` takes the
  numbers of the first row for the rows of all nodes (`C96_forgotten_support`). A delete call after a raised add call
  raises half-way, and the coordinates of the deleted node belong to the next one entered (`C96_deleted_after_raise`).
* With step control and more reductions than `cycl` allows, the last cycle number is printed again and again
  (`C98_repeated_cycle_number`); the table of parameters shows the inverse of `reduce` under the name of `reduce`
  (`C98_complete_text`, `paramText`). The predictor has the iteration number 0 but is counted in the totals.
* An element without material between two held nodes does not disturb the run: its increments are accepted and its force
  is recorded as NaN (example beside `C114_unusable_element`). With a free component at one end the run ends with an
  error message.
* `Element(..., material_properties=np.array([E, a]))` raises `ValueError`, although the argument is documented as
  "array_like": the truth value of the comparison with `[np.nan]` is ambiguous (`C115_array_rejected`). The short names work.
* The default `[np.nan]` is one list for all elements. Editing the properties of an element that was made without any
  changes all later ones, and elements with `mprop` are then rejected with `TypeError` (`C115_edited_default`).
* After a `run` that raised, the result list ends with a working copy of the last state, or has the undeformed state twice if
  no step was completed. A following `run` without `build` counts on from there (C118, C47).
* `build` sets `settings.nstatev = 2` if there is a plastic element and never sets it back (`model.py`, `Model.build`), so a
  model whose plastic elements were replaced carries unused state variables.  They have no influence on any result
  (`C120_state_variables`).
* The element type is never read, so any number is accepted; a load on a supported component is accepted too and only shows up
  in the residual `g` there, i.e. the stored "reaction" is the internal force minus that load (`C121_no_influence`).

## Mutation tests

`seeded/LOG.jsonl` has one line per wrong program: the definition, the edit, the claims that are false for it, and the
theorems that stop proving. A mutant is rebuilt with Lean's elaborator in a scratch copy; a theorem counts as failed if its
proof (or that of a lemma it uses) no longer elaborates.
