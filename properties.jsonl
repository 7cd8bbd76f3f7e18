{"id": "C01", "title": "Node coordinates stay attached to their labels", "statement": "After any sequence of add_node calls with distinct labels followed by build(), Nodes.labels is ascending and the coordinate row stored next to each label is the one the user gave for that label; no node is lost or invented.", "quantifier": "every finite list of nodes with pairwise distinct labels, in every insertion order, and every sorting permutation np.argsort may return", "why_tests_cant": "sizes and insertion orders are unbounded", "anchors": ["src/trusspy/handlers/handler_node.py:add_node,fix_nodes", "src/trusspy/model.py:Model.build"]}
{"id": "C02", "title": "Unspecified supports are free, specified ones are kept", "statement": "After a successful build(), Boundaries holds exactly one row per node in node order; a node the user never constrained gets (1,1,1), every other node keeps exactly the row the user gave.", "quantifier": "all node lists with distinct labels, all boundary lists the build accepts", "why_tests_cant": "all subsets of nodes and all insertion orders", "anchors": ["src/trusspy/handlers/handler_boundary.py:fix_bounds_U,add_bound_U", "src/trusspy/model.py:Model.build"]}
{"id": "C03", "title": "Unspecified loads are zero, specified ones are kept", "statement": "After a successful build(), ExtForces holds exactly one row per node in node order; a node without user load gets a zero row of the common width, every other node keeps exactly the row given.", "quantifier": "all node lists with distinct labels, all load lists the build accepts", "why_tests_cant": "all subsets and orders", "anchors": ["src/trusspy/handlers/handler_extforce.py:fix_forces,add_force", "src/trusspy/model.py:Model.build"]}
{"id": "C04", "title": "Insertion order does not matter", "statement": "Permuting the add_node, add_bound_U and add_force calls does not change the node table, support table, load table and active/locked degree-of-freedom lists produced by build().", "quantifier": "all permutations of all input lists with distinct labels; any two valid argsort implementations", "why_tests_cant": "factorially many orders", "anchors": ["src/trusspy/model.py:Model.build", "src/trusspy/handlers/handler_node.py:fix_nodes", "src/trusspy/handlers/handler_boundary.py:fix_bounds_U", "src/trusspy/handlers/handler_extforce.py:fix_forces"]}
{"id": "C05", "title": "build never silently misassigns a support or a load", "statement": "For a model with distinct node labels and at least two nodes, build() succeeds only if no node is constrained twice or loaded twice and no constraint or load refers to a node that does not exist; otherwise it raises. This holds although the check is a tolerance-based np.allclose that accepts e.g. 100000 vs 100001.", "quantifier": "all label lists, including labels large enough that np.allclose treats neighbours as equal", "why_tests_cant": "labels are unbounded integers; the tolerance only matters for huge labels", "anchors": ["src/trusspy/model.py:Model.build (np.allclose check)", "src/trusspy/handlers/handler_boundary.py:fix_bounds_U", "src/trusspy/handlers/handler_extforce.py:fix_forces"]}
{"id": "C06", "title": "Active and locked degrees of freedom are exact", "statement": "After build(), a degree of freedom 3*i+c is active iff the support row of the i-th node has a 1 in component c and locked iff it has a 0; both lists are strictly ascending, disjoint, and partition all degrees of freedom iff every support entry is 0 or 1.", "quantifier": "all support tables", "why_tests_cant": "all sizes and 0/1 patterns", "anchors": ["src/trusspy/model.py:Model.build nproDOF0 nproDOF1"]}
{"id": "C07", "title": "build is idempotent", "statement": "Calling build() again on the model produced by build() yields the same node, support and load tables and the same degree-of-freedom lists (and fresh empty results).", "quantifier": "all models for which build succeeds", "why_tests_cant": "all models", "anchors": ["src/trusspy/model.py:Model.build"]}
{"id": "C08", "title": "A model without loads or without nodes/elements is rejected", "statement": "build() raises when no node, no element or no external force was ever added; a missing support definition alone is accepted and means all degrees of freedom are free.", "quantifier": "all models with one of the tables never populated", "why_tests_cant": "universal over the other tables", "anchors": ["src/trusspy/model.py:Model.build", "src/trusspy/handlers/handler_extforce.py:fix_forces", "src/trusspy/handlers/handler_boundary.py:fix_bounds_U"]}
{"id": "C09", "title": "Deletion removes exactly the named rows", "statement": "del_node / del_force / del_bound_U(label) remove every row of that label and keep all other rows with their data, in order. (For a support table holding a single row the code violates this: the row is stored one-dimensionally and only its first component is deleted.)", "quantifier": "all handler contents and labels", "why_tests_cant": "all histories of add/delete calls", "anchors": ["src/trusspy/handlers/handler_node.py:del_node", "src/trusspy/handlers/handler_extforce.py:del_force", "src/trusspy/handlers/handler_boundary.py:del_bound_U"]}
{"id": "C10", "title": "Deleting an element leaves the other elements' data intact", "statement": "After del_element(l), every other element keeps its connectivity, material properties, geometric properties, material type and element type. (The code does not delete from the type tables, so the type part is false.)", "quantifier": "all element tables with distinct labels", "why_tests_cant": "all tables and labels", "anchors": ["src/trusspy/handlers/handler_element.py:del_element,get_material_type,get_element_type"]}
{"id": "C11", "title": "assign_material / assign_geometry change exactly the named elements", "statement": "After assign_material(labels, mprop) every named existing element reports mprop padded with zeros to the common width, every other element reports its old values padded with zeros; assign_geometry likewise without padding. (If the table was created from integer values the code truncates assigned non-integers.)", "quantifier": "all tables, label lists and property lists", "why_tests_cant": "all widths, label subsets and orders", "anchors": ["src/trusspy/handlers/handler_element.py:assign_material,assign_geometry,assign_geometries"]}
{"id": "C12", "title": "Element look-ups return what was added", "statement": "For distinct element labels, get_nodes/get_material_properties/get_geometric_properties/get_material_type/get_element_type return the data passed to add_element for that label, independent of the other elements; an unknown label raises IndexError.", "quantifier": "all add_element sequences with distinct labels of one property width", "why_tests_cant": "all sequences", "anchors": ["src/trusspy/handlers/handler_element.py:add_element,get_nodes,get_material_properties,get_geometric_properties,get_material_type,get_element_type"]}
{"id": "C13", "title": "Elastic material is linear and stateless", "statement": "The elastic law returns stress E*e, tangent E and the state unchanged for every strain, increment and state.", "quantifier": "all strains, increments, properties and states", "why_tests_cant": "continuum of inputs", "anchors": ["src/trusspy/materials/material_definition.py:umat_el"]}
{"id": "C14", "title": "Plastic stress never exceeds the current yield stress", "statement": "For positive E, non-negative hardening K and positive initial yield stress, after any history of committed strains |stress| <= updated yield stress, with equality after a plastic update.", "quantifier": "all strain histories of any length", "why_tests_cant": "unbounded histories", "anchors": ["src/trusspy/materials/material_definition.py:umat_elplast_iso"]}
{"id": "C15", "title": "Isotropic hardening is monotone and equals K times accumulated plastic strain", "statement": "Along every committed strain history the yield stress never decreases and equals Sy + K * (sum of absolute plastic strain increments). (False for softening K<0: a yield stress of exactly 0 is read as 'virgin' and resets to Sy.)", "quantifier": "all strain histories", "why_tests_cant": "unbounded histories", "anchors": ["src/trusspy/materials/material_definition.py:umat_elplast_iso"]}
{"id": "C16", "title": "Elastic unloading is reversible", "statement": "While the trial stress stays inside the yield surface the material state does not change and stress = E*(e - plastic strain); stress always equals E*(e - updated plastic strain).", "quantifier": "all strains and states", "why_tests_cant": "continuum", "anchors": ["src/trusspy/materials/material_definition.py:umat_elplast_iso"]}
{"id": "C17", "title": "Re-evaluating a committed state changes nothing", "statement": "Evaluating the plastic law again at the committed strain with the committed state returns the same stress and the same state.", "quantifier": "all strains and states with E>0,K>=0", "why_tests_cant": "continuum", "anchors": ["src/trusspy/materials/material_definition.py:umat_elplast_iso"]}
{"id": "C18", "title": "Monotone loading is independent of the increment size", "statement": "For the plastic law, splitting a monotone strain path into any number of increments gives the same final stress, yield stress and plastic strain as one increment.", "quantifier": "all monotone strain sequences of any length from the virgin state", "why_tests_cant": "unbounded number of sub-steps", "anchors": ["src/trusspy/materials/material_definition.py:umat_elplast_iso"]}
{"id": "C19", "title": "Plastic work is non-negative", "statement": "In every update stress times plastic strain increment is >= 0, so the material never creates energy.", "quantifier": "all strains and admissible states", "why_tests_cant": "continuum", "anchors": ["src/trusspy/materials/material_definition.py:umat_elplast_iso"]}
{"id": "C20", "title": "The material tangent is the derivative of the stress", "statement": "The returned tangent equals d stress / d strain at every strain where the law is differentiable (not exactly on the yield surface).", "quantifier": "all strains off the kink", "why_tests_cant": "continuum", "anchors": ["src/trusspy/materials/material_definition.py:umat_el,umat_elplast_iso"]}
{"id": "C21", "title": "Element forces are equal and opposite along the deformed axis", "statement": "For each element the force added to the end node is N*n and to the begin node -N*n with n the unit vector of the deformed element, N = stress*A, stretch = l/L.", "quantifier": "all geometries with non-coincident deformed end nodes", "why_tests_cant": "continuum", "anchors": ["src/trusspy/elements/element_definition.py:truss"]}
{"id": "C22", "title": "Internal forces are self-equilibrated", "statement": "For every displacement state the internal nodal forces recorded by an equilibrium evaluation sum to zero and have zero total moment about the origin in the deformed configuration.", "quantifier": "all models with distinct node labels, all displacements, any number of elements, any material mix", "why_tests_cant": "all structures and states", "anchors": ["src/trusspy/model.py:Model.equilibrium", "src/trusspy/elements/element_definition.py:truss"]}
{"id": "C23", "title": "Assembly is the sum over elements", "statement": "After an evaluation the internal force of a node is the sum of +-N*n over the elements attached to it, and stiffness block (a,b) is the sum of the element blocks; nodes without elements get zero.", "quantifier": "all models with distinct labels", "why_tests_cant": "all connectivities", "anchors": ["src/trusspy/model.py:Model.equilibrium,Model.stiffness", "src/trusspy/elements/element_definition.py:truss"]}
{"id": "C24", "title": "Element order and orientation do not matter", "statement": "Reordering the elements, or swapping the begin and end node of any elements, changes neither the internal forces nor the stiffness matrix nor element force/stress/stretch.", "quantifier": "all permutations of the element list and all subsets of flipped elements", "why_tests_cant": "factorially many", "anchors": ["src/trusspy/model.py:Model.equilibrium", "src/trusspy/elements/element_definition.py:truss"]}
{"id": "C25", "title": "The stiffness matrix is symmetric and annihilates translations", "statement": "stiffness() returns a symmetric matrix; each block row of the full matrix sums to zero, so a rigid translation produces no force change.", "quantifier": "all models and displacement states", "why_tests_cant": "continuum", "anchors": ["src/trusspy/model.py:Model.stiffness", "src/trusspy/elements/element_definition.py:truss"]}
{"id": "C26", "title": "The stiffness matrix is the exact Jacobian of the internal force", "statement": "For elastic elements (and plastic elements off the yield kink) the reduced stiffness is the Frechet derivative of the reduced internal force with respect to the active displacements wherever no deformed element has zero length.", "quantifier": "all models, all displacement states without collapsed elements", "why_tests_cant": "continuum", "anchors": ["src/trusspy/model.py:Model.stiffness,Model.equilibrium", "src/trusspy/elements/element_definition.py:truss"]}
{"id": "C27", "title": "The extended Newton matrix is the exact Jacobian of the extended residual", "statement": "The (n+1)x(n+1) matrix used by the path-following solver is the Frechet derivative of [-(equilibrium); V_j - V_max] with respect to (active displacements, LPF), for every control component j.", "quantifier": "all models, states and control components", "why_tests_cant": "continuum", "anchors": ["src/trusspy/solvers/tpsolver.py:f,dfdx", "src/trusspy/model.py:Model.stiffness,Model.equilibrium"]}
{"id": "C28", "title": "Frame indifference", "statement": "Superposing a rigid motion (rotation about the origin, translation) on the deformed configuration leaves stretches, stresses and element forces unchanged and rotates the internal nodal forces.", "quantifier": "all rotations/translations, all models and displacements", "why_tests_cant": "continuum", "anchors": ["src/trusspy/elements/element_definition.py:truss"]}
{"id": "C29", "title": "Undeformed structure carries no force", "statement": "With zero displacements and virgin state every element has stretch 1, zero stress and zero force, and the residual equals the external load.", "quantifier": "all models with non-zero element lengths", "why_tests_cant": "all models", "anchors": ["src/trusspy/elements/element_definition.py:truss", "src/trusspy/model.py:Model.equilibrium"]}
{"id": "C30", "title": "Supports never move", "statement": "In every result recorded by run() the displacement of every degree of freedom that is not active is exactly zero.", "quantifier": "all models, settings, numbers of steps and increments, any linear solver, any arithmetic (no rounding law used)", "why_tests_cant": "unbounded runs", "anchors": ["src/trusspy/model.py:Model.equilibrium,Model.run", "src/trusspy/solvers/tpsolver.py:pathfollow"]}
{"id": "C31", "title": "Evaluations are history independent", "statement": "The value returned by equilibrium()/stiffness() depends only on the displacement, LPF, loads and committed state variables, not on earlier evaluations, and an evaluation without commit never changes state variables.", "quantifier": "all sequences of earlier evaluations", "why_tests_cant": "unbounded call histories", "anchors": ["src/trusspy/model.py:Model.equilibrium,Model.stiffness", "src/trusspy/elements/element_definition.py:truss"]}
{"id": "C32", "title": "newton reports success only for a converged root", "statement": "newton() returns success=True only if at the returned x norm(f(x)) < ftol and the last update norm < xtol, reports 1 <= n <= nfev, and on success=False has used exactly nfev iterations, none of which met both tolerances; with nfev <= 0 it raises instead of returning.", "quantifier": "all functions f, dfdx, linear solvers, start vectors, tolerances and iteration limits, any floating point arithmetic", "why_tests_cant": "arbitrary user functions", "anchors": ["src/trusspy/solvers/zerosearch.py:newton"]}
{"id": "C33", "title": "newton solves affine systems in one step", "statement": "If f is affine with matrix dfdx and the linear solver is exact, the first iterate is a root, and success is reported after at most two iterations when nfev >= 2 and tolerances are positive.", "quantifier": "all affine systems of any size", "why_tests_cant": "all sizes", "anchors": ["src/trusspy/solvers/zerosearch.py:newton"]}
{"id": "C34", "title": "Recorded increments are converged and bounded", "statement": "Every increment recorded by pathfollow() except possibly the last one of an error-stopped job satisfies norm(residual) < ftol and moves every component by at most dxtol times the recorded dVmax (only the control component if j_fixed), provided the linear predictor does not itself meet the tolerances. (The documentation calls all results converged; an error-stopped job records its unconverged last iterate.)", "quantifier": "all residual functions, solvers, settings and numbers of increments", "why_tests_cant": "unbounded runs", "anchors": ["src/trusspy/solvers/tpsolver.py:pathfollow", "src/trusspy/model.py:Model.run"]}
{"id": "C35", "title": "The control component advances by the step width", "statement": "In every accepted increment the control component used by Newton changes by +dVmax_j or -dVmax_j (sign of j) up to ftol.", "quantifier": "all runs", "why_tests_cant": "unbounded runs", "anchors": ["src/trusspy/solvers/tpsolver.py:pathfollow,f"]}
{"id": "C36", "title": "Every increment terminates", "statement": "The recycle loop of one increment ends after at most max(cycl,1) attempts without step control; with step control, reduce>1, minfac>0, it ends after finitely many attempts bounded by the settings. (With cycl <= 0, or reduce <= 1, it can run forever.)", "quantifier": "all behaviours of the Newton solver (arbitrary oracle), all settings", "why_tests_cant": "infinite behaviours", "anchors": ["src/trusspy/solvers/tpsolver.py:pathfollow,dxmax_control"]}
{"id": "C37", "title": "Step width control stays within proportional bounds", "statement": "The step width vector always is a common scalar multiple of the initial one and the scalar stays within (minfac/reduce, maxfac*(1+increase)]. (The documented tighter bound [minfac, maxfac] is violated.)", "quantifier": "all runs and solver behaviours", "why_tests_cant": "unbounded runs", "anchors": ["src/trusspy/solvers/tpsolver.py:dxmax_control,pathfollow"]}
{"id": "C38", "title": "Limit stop happens at the first exceedance", "statement": "pathfollow() stops at the first recorded increment whose limited component exceeds xlimit in absolute value; all earlier increments are within the limit; at most incs increments are recorded.", "quantifier": "all runs", "why_tests_cant": "unbounded runs", "anchors": ["src/trusspy/solvers/tpsolver.py:pathfollow"]}
{"id": "C39", "title": "Result snapshots match the recorded vectors", "statement": "pathfollow() returns equally many vectors and analysis snapshots; snapshot k>=1 has Vred = res_x[k], Ured its displacement part, lpf its last component.", "quantifier": "all runs", "why_tests_cant": "unbounded runs", "anchors": ["src/trusspy/solvers/tpsolver.py:pathfollow"]}
{"id": "C40", "title": "State variables are committed once per accepted increment", "statement": "State variables in recorded results change only at accepted increments, where they become the material update from the previous committed state at the accepted displacement; Newton trials and recycles never change them.", "quantifier": "all runs with plastic elements", "why_tests_cant": "unbounded histories", "anchors": ["src/trusspy/solvers/tpsolver.py:pathfollow", "src/trusspy/model.py:Model.equilibrium"]}
{"id": "C41", "title": "Result list layout", "statement": "After build() and run(), Results.R[0] is the undeformed state and Results.R[1:] are exactly the increments of all steps in order, so len(R) = 1 + total recorded increments.", "quantifier": "all numbers of steps, increments per step >= 1, all solver outcomes", "why_tests_cant": "unbounded", "anchors": ["src/trusspy/model.py:Model.run", "src/trusspy/handlers/handler_result.py:ResultHandler"]}
{"id": "C42", "title": "Loads are continuous across steps", "statement": "At the start of step s+1 the external load equals the load at the end of step s: constant part = sum over previous steps of final LPF times that step's load.", "quantifier": "all numbers of steps, all LPF end values, each step recording at least one increment", "why_tests_cant": "unbounded", "anchors": ["src/trusspy/model.py:Model.run"]}
{"id": "C43", "title": "Displacements are continuous across steps", "statement": "Step s+1 starts from the last recorded displacements of step s with LPF 0.", "quantifier": "all step sequences", "why_tests_cant": "unbounded", "anchors": ["src/trusspy/model.py:Model.run", "src/trusspy/solvers/tpsolver.py:pathfollow"]}
{"id": "C44", "title": "Recorded results are internally consistent", "statement": "For every recorded increment with at least one Newton evaluation, the full displacement table restricted to the active degrees of freedom is the recorded reduced vector, and the recorded residual is -r + const + lpf*load of the recorded quantities.", "quantifier": "all runs", "why_tests_cant": "unbounded runs", "anchors": ["src/trusspy/model.py:Model.run,Model.equilibrium", "src/trusspy/solvers/tpsolver.py:pathfollow"]}
{"id": "C45", "title": "A predictor that already converges must not lose the increment", "statement": "If the one-iteration predictor meets both tolerances the increment is recorded with the start vector, i.e. without progress; this cannot happen while the step width of the control component is at least ftol+xtol.", "quantifier": "all runs", "why_tests_cant": "depends on tolerance/step ratio", "anchors": ["src/trusspy/solvers/tpsolver.py:pathfollow (nr_success_pre)"]}
{"id": "C46", "title": "Degenerate settings are rejected, not mis-solved", "statement": "With the predictor active and nfev=1 an increment that is not solved by the predictor raises; a model without any active degree of freedom raises in the first increment; a NaN increment raises instead of selecting a control component.", "quantifier": "all such models/settings", "why_tests_cant": "universal", "anchors": ["src/trusspy/solvers/tpsolver.py:pathfollow", "src/trusspy/solvers/zerosearch.py:newton"]}
{"id": "C47", "title": "Rerunning without rebuild", "statement": "Calling run() a second time without build() keeps the previous history intact and appends to it. (False: it inserts a second undeformed entry and overwrites the last previous result.)", "quantifier": "all models with at least one recorded increment", "why_tests_cant": "histories of calls", "anchors": ["src/trusspy/model.py:Model.run", "src/trusspy/handlers/handler_result.py:duplicate_first_increment"]}
{"id": "C48", "title": "Model plots connect the right nodes", "statement": "plot_model draws each element between the deformed positions of the two nodes named in its connectivity. (Holds exactly for labels 1..n; the plot indexes node rows by label-1.)", "quantifier": "all models", "why_tests_cant": "label sets are arbitrary", "anchors": ["src/trusspy/tools/helper_functions2.py:plot_elems", "src/trusspy/tools/plot_utilities.py:p_model"]}
{"id": "C49", "title": "Plotted loads are the solver's loads", "statement": "plot_model(inc=k) for k != 0 draws for each node the constant load of the step plus LPF times the step load, i.e. exactly the external load of the recorded equilibrium; negative inc counts from the end.", "quantifier": "all results and increments", "why_tests_cant": "all increments", "anchors": ["src/trusspy/tools/plot_utilities.py:p_model"]}
{"id": "C50", "title": "History and path data are aligned with results", "statement": "plot_history yields 1+len(R) points: the origin and then one per recorded result in order with that result's displacement/force/LPF of the chosen node; plot_path yields one value per node of the path. (State-variable histories are indexed by node position although state variables are per element.)", "quantifier": "all models, results, node choices", "why_tests_cant": "all lengths", "anchors": ["src/trusspy/tools/plot_utilities.py:p_history,p_path"]}
{"id": "C51", "title": "Movie frames appear in increment order", "statement": "The gif assembled by plot_movie shows the requested increments in increasing order without stale frames. (False for 1000 or more increments: frame files are sorted as text with three-digit padding.)", "quantifier": "all increment sets", "why_tests_cant": "needs >= 1000 increments", "anchors": ["src/trusspy/tools/plot_utilities.py:p_movie", "src/trusspy/tools/movie_generator.py:png_to_gif"]}
{"id": "C52", "title": "stdout is restored", "statement": "After a model with logfile=True has been created and run, standard output is what it was before; holds for any properly nested creation/run of several models. (Fails for interleaved models and when run() raises.)", "quantifier": "all nested schedules of model creations and runs", "why_tests_cant": "unbounded schedules", "anchors": ["src/trusspy/model.py:Model.__init__,Model.run"]}
{"id": "C53", "title": "Recorded results are isolated from later computation", "statement": "Results already in Results.R never change through later increments, steps or evaluations, although the solver keeps mutating one analysis object.", "quantifier": "all histories of later evaluations", "why_tests_cant": "aliasing over unbounded histories", "anchors": ["src/trusspy/handlers/handler_result.py:copy_increment,add_increment", "src/trusspy/solvers/tpsolver.py:pathfollow (deepcopy)", "src/trusspy/model.py:Model.run"]}
{"id": "C54", "title": "Unknown material types are rejected", "statement": "An element whose material type is neither 1 nor 2 raises at evaluation. (False: only if it is the first element; otherwise the law of the previous element is silently used.)", "quantifier": "all element tables", "why_tests_cant": "all orders", "anchors": ["src/trusspy/model.py:Model.equilibrium"]}
{"id": "C55", "title": "Conflicting property keywords are rejected", "statement": "Element(...) with both material_properties and mprop (or both geometric_properties and gprop) raises TypeError, otherwise uses the given one.", "quantifier": "all argument combinations", "why_tests_cant": "finite but spans all values", "anchors": ["src/trusspy/core/element.py:Element.__init__"]}
{"id": "C56", "title": "Evaluations of a well-formed structure never raise", "statement": "If every element connects two known, distinct nodes, has a known material type and the properties its law needs, and loads and displacement vectors have the size of the model, then equilibrium() and stiffness() return for every displacement; the only data-dependent branches are inside the material law.", "quantifier": "all structures, displacements, state variables and arithmetics", "why_tests_cant": "infinitely many structures and displacement vectors", "anchors": ["src/trusspy/model.py:Model.equilibrium", "src/trusspy/model.py:Model.stiffness", "src/trusspy/elements/element_definition.py:truss"]}
{"id": "C57", "title": "Automatic contour limits cover all values symmetrically", "statement": "When plot_model is called with a contour quantity and automatic limits, the colour limits contain the value of every element, are symmetric about the neutral value (1 for stretch, 0 for force and stress), and one of them is attained by an element.", "quantifier": "all models, results, increments and contour quantities", "why_tests_cant": "a visual range that silently clips values is not noticed by tests that only check that a figure is created", "anchors": ["src/trusspy/tools/plot_utilities.py:p_model", "src/trusspy/tools/helper_functions2.py:plot_elems"]}
{"id": "C58", "title": "The residual is minus the gradient of the potential energy", "statement": "For a structure of elastic bars the reduced residual returned by Model.equilibrium is minus the gradient, with respect to the free displacements, of strain energy (sum of E A L/2 (stretch-1)^2) minus the potential of the current loads; so internal forces do no net work on closed displacement paths.", "quantifier": "all structures of elastic bars, all displacements without a collapsed bar, all load factors and load tables", "why_tests_cant": "A test checks finitely many displacements by finite differences with a tolerance; conservativity is an identity between a derivative and the code's output at every state.", "anchors": ["src/trusspy/model.py:Model.equilibrium", "src/trusspy/elements/element_definition.py:truss"]}
{"id": "C59", "title": "Second variation of the energy; tension is stable", "statement": "The quadratic form of the reduced stiffness matrix is the sum over the bars of D A/L (elongation)^2 + N/l (transverse displacement)^2; hence it is positive semidefinite whenever no bar is in compression (usual material constants, elastic or plastic).", "quantifier": "all structures, all states, all virtual displacements of the free degrees of freedom", "why_tests_cant": "Definiteness quantifies over every virtual displacement and every tensile state; an error in the geometric stiffness changes it only in some directions.", "anchors": ["src/trusspy/model.py:Model.stiffness", "src/trusspy/elements/element_definition.py:truss"]}
{"id": "C60", "title": "Infinitesimal rotations turn the internal forces", "statement": "The assembled stiffness blocks applied to the nodal velocities omega x x of a rigid rotation of the deformed structure give omega x (internal force of the node) at every node.", "quantifier": "all structures, states, rotation vectors and nodes", "why_tests_cant": "Needs the exact balance of material and geometric stiffness at every deformed state; numerical tests only see it up to a tolerance at a few states.", "anchors": ["src/trusspy/model.py:Model.equilibrium", "src/trusspy/model.py:Model.stiffness", "src/trusspy/elements/element_definition.py:truss"]}
{"id": "C61", "title": "The analysed structure is the entered structure", "statement": "After a successful Model.build of well posed input (distinct labels, every element joins two different entered nodes) the tables used by equilibrium and stiffness describe exactly one bar per entered element, in order of entry, between the two entered nodes at their entered coordinates, with the entered material type, material and geometric properties; if all properties were entered, no later look-up of them can fail.", "quantifier": "all well posed node and element input in any order of entry, any labels, any argsort that sorts", "why_tests_cant": "The composition of stacking, reordering by label and look-up by label has to be right for every order and every choice of labels.", "anchors": ["src/trusspy/model.py:Model.build", "src/trusspy/model.py:Model.equilibrium", "src/trusspy/handlers/handler_node.py:NodeHandler", "src/trusspy/handlers/handler_element.py:ElementHandler"]}
{"id": "C62", "title": "Every accepted increment is an equilibrium of the entered structure", "statement": "In every result recorded by Model.run for an accepted increment the internal forces of the entered bars at the recorded displacements balance, at every component of every node the user left free, the constant load plus load factor times step load as entered by the user, up to the tolerance 10^-ftol; the recorded residual itself has a norm below the tolerance.", "quantifier": "all well posed input, all settings, all linear solvers, all runs that return, all accepted increments (exact arithmetic; residual statement for every arithmetic)", "why_tests_cant": "It links user input to recorded output through build, the step loop, the recycle loop and Newton's method for every model and every solver behaviour.", "anchors": ["src/trusspy/model.py:Model.build", "src/trusspy/model.py:Model.run", "src/trusspy/solvers/tpsolver.py:pathfollow", "src/trusspy/solvers/zerosearch.py:newton"]}
{"id": "C63", "title": "Support reactions balance the loads", "statement": "In every result recorded by Model.run, converged or not (except those left by a predictor), the recorded residual forces of all nodes have the same resultant and the same moment at the deformed positions as the loads; in accepted increments the support reactions and the loads add up to zero in every direction up to the tolerance for each active component.", "quantifier": "all models, settings, linear solvers and runs that return, all recorded results (exact arithmetic)", "why_tests_cant": "Global balance must hold for every structure and every recorded state, also for iterates a failing solver leaves behind.", "anchors": ["src/trusspy/model.py:Model.run", "src/trusspy/model.py:Model.equilibrium"]}
{"id": "C64", "title": "A valid model builds and runs to completion", "statement": "For valid input (well posed structure with all properties, supports and loads at existing nodes, none twice, loads for every step, at least one free component) and sensible settings, Model.build and Model.run return without exception, whatever vectors of the right size the linear solver returns, as long as no NaN occurs; each increment needs at most cycl attempts without step control, and with step control a number of attempts bounded by the settings alone.", "quantifier": "all valid inputs and settings, all linear solvers that return, every arithmetic without NaN (step control: exact arithmetic)", "why_tests_cant": "Absence of exceptions and of endless recycling for every model and every solver behaviour cannot be enumerated.", "anchors": ["src/trusspy/model.py:Model.build", "src/trusspy/model.py:Model.run", "src/trusspy/model.py:Model.equilibrium", "src/trusspy/solvers/tpsolver.py:pathfollow", "src/trusspy/solvers/tpsolver.py:dxmax_control"]}
{"id": "C65", "title": "Labels are mere names", "statement": "Renaming the nodes in a way that keeps their order and the elements in any one-to-one way (in all add calls alike) changes nothing but the names: the renamed model builds, has the same degrees of freedom, and every run ends with the same exception or the same analysis and results.", "quantifier": "all inputs whose model builds, all order-preserving node renamings, all one-to-one element renamings, all settings, solvers and arithmetics", "why_tests_cant": "Mixing up labels and row numbers is invisible in every test that numbers its nodes 1..n; the claim is about all renamings.", "anchors": ["src/trusspy/model.py:Model.build", "src/trusspy/model.py:Model.run", "src/trusspy/model.py:Model.equilibrium", "src/trusspy/handlers/handler_node.py", "src/trusspy/handlers/handler_element.py"]}
{"id": "C66", "title": "Later steps do not matter", "statement": "The results of the first k steps do not depend on anything that belongs to later steps (their loads, numbers of increments, limits, or whether they exist): if the longer analysis returns, the analysis with the first k steps alone returns too, and its results (after the undeformed state) and step-end load factors are exactly those the longer analysis recorded for these steps.", "quantifier": "all inputs, all k >= 1, all continuations, all settings, solvers and arithmetics", "why_tests_cant": "A test compares a few pairs of analyses; a wrong load column or index may only show for particular step counts.", "anchors": ["src/trusspy/model.py:Model.run", "src/trusspy/handlers/handler_result.py"]}
{"id": "C67", "title": "More increments extend the path", "statement": "Repeating an analysis with fewer increments in its last step gives the same results before that step and the first n results of that step (all of them if it recorded no more); if the longer analysis returns, so does the shorter.", "quantifier": "all inputs, all n <= n', all settings, solvers and arithmetics", "why_tests_cant": "Independence of the number of increments is a statement about all pairs of runs.", "anchors": ["src/trusspy/solvers/tpsolver.py:pathfollow", "src/trusspy/model.py:Model.run"]}
{"id": "C68", "title": "A solver error ends the analysis", "statement": "When the path-following solver stops with ERROR 1 or ERROR 2 the analysis ends there. (False: only the step ends; its unconverged iterate is recorded and the next step starts from it.)", "quantifier": "all models, settings, solvers, all runs that return", "why_tests_cant": "Tests with converging models never reach an error in a step that is followed by another one.", "anchors": ["src/trusspy/model.py:Model.run", "src/trusspy/solvers/tpsolver.py:pathfollow"]}
{"id": "C69", "title": "The first result describes the undeformed structure", "statement": "Results.R[0] equals an evaluation of the undeformed structure: no displacement, no force, no stress, load factor 0, stretch 1. (False for the stretch, which is recorded as 0.)", "quantifier": "all models that build and runs that return", "why_tests_cant": "Tests look at the last results; the first entry is only seen in plots.", "anchors": ["src/trusspy/model.py:Model.build", "src/trusspy/core/analysis.py:Analysis.build"]}
{"id": "C70", "title": "Newton's method converges near a regular solution", "statement": "If z solves the equations handed to newton, their derivative is continuous near z, dfdx returns it, and it is regular at z, then newton started close enough to z reports success within the number of iterations needed to halve a constant down to the tolerances, and the returned vector is within a constant times ftol of z. In particular for the equilibrium equations of a truss with a control equation, at a point where every bar has a length, no plastic bar is exactly at its yield limit, and the extended stiffness matrix is regular.", "quantifier": "all functions, all trusses and states of analysis, all regular solutions, all start vectors in a neighbourhood, all tolerances > 0, exact linear solver, exact arithmetic", "why_tests_cant": "Convergence from a whole neighbourhood and for every tolerance cannot be sampled; a wrong stiffness entry often still converges in a test.", "anchors": ["src/trusspy/solvers/zerosearch.py:newton", "src/trusspy/solvers/tpsolver.py:f", "src/trusspy/solvers/tpsolver.py:dfdx", "src/trusspy/model.py:Model.equilibrium", "src/trusspy/model.py:Model.stiffness"]}
{"id": "C71", "title": "Small steps are accepted", "statement": "At an equilibrium where every bar has a length, no plastic bar is exactly at its yield limit and the extended stiffness matrix is regular, an increment of the path-following solver with sufficiently small step widths (and enough allowed iterations for the tolerances, xtol not above the step widths) is accepted at the first attempt, and some component moves exactly by its step width; with a fixed control component it is that component. So the solver passes limit points, where the load cannot be increased.", "quantifier": "all trusses, states of analysis, regular equilibria, step width directions d > 0, all small factors t, all settings with dxtol > 1 (dxtol >= 1 with j_fixed), exact linear solver, exact arithmetic", "why_tests_cant": "That a small enough step always exists and works, at every regular point of every path, is a statement about limits.", "anchors": ["src/trusspy/solvers/tpsolver.py:pathfollow", "src/trusspy/solvers/zerosearch.py:newton", "src/trusspy/model.py:Model.equilibrium", "src/trusspy/model.py:Model.stiffness"]}
{"id": "C72", "title": "Undeformed stiffness regular iff the truss is no mechanism", "statement": "After build, Model.stiffness evaluated at zero displacements returns a matrix which is regular if and only if the entered truss is kinematically stable: the only node velocities which the supports allow and which change the length of no bar are zero. So for a mechanism the linear solve of the first iteration is singular, whatever the loads and the positive cross sections and moduli, and for a stable truss it never is.", "quantifier": "all well-posed inputs in any order of calls with bars of positive length, cross section and modulus (elastic or plastic), all load factors, exact arithmetic", "why_tests_cant": "An equivalence over all geometries and supports; tests use trusses that are known to be stable.", "anchors": ["src/trusspy/model.py:Model.stiffness", "src/trusspy/model.py:Model.build", "src/trusspy/elements/element_definition.py:truss"]}
{"id": "C73", "title": "A stable truss takes its first load increment", "statement": "For every well-posed input whose bars have positive length, cross section and modulus and which is no mechanism there are t0 > 0 and C such that, for all step widths du*t, dlpf*t with t < t0 (xtol not above the widths, enough iterations for C*t to be halved down to the tolerances, free control component with predictor), in every run of a model built from this input the first increment is accepted at the first attempt, its state is the first result after the undeformed one, and a displacement or the load factor has moved exactly by its step width. With one step of one increment, build and run return exactly these two states.", "quantifier": "all well-posed stable inputs in any order of calls, all settings as stated (limits, number of steps and increments, step control, recycles arbitrary), exact linear solver, exact arithmetic", "why_tests_cant": "Existence of a working step width for every stable truss is a statement about limits over all geometries; a test shows it for one truss and one width.", "anchors": ["src/trusspy/model.py:Model.build", "src/trusspy/model.py:Model.run", "src/trusspy/solvers/tpsolver.py:pathfollow", "src/trusspy/solvers/zerosearch.py:newton", "src/trusspy/model.py:Model.stiffness"]}
{"id": "C74", "title": "The picture shows the selected data in the named view", "statement": "plot_model in view 'xz', 'xy' or 'yz' draws exactly the load arrows of the nonzero in-plane load components (one each, at the displaced node, force_scale times the component), one marker per node at its projected displaced position, and one line per element between its projected ends, and names the axes after the two drawn coordinates; in view '3d' it draws all three components on a single set of 3-d axes opened before anything else; any other view raises.", "quantifier": "all models and results, all views, contours, limits, scales and increments for which the call returns; every arithmetic", "why_tests_cant": "Pictures are compared by eye if at all; a swapped component or an arrow at the wrong node shows only for particular loads and views.", "anchors": ["src/trusspy/tools/plot_utilities.py:p_model", "src/trusspy/tools/helper_functions2.py:plot_force", "src/trusspy/tools/helper_functions2.py:plot_nodes", "src/trusspy/tools/helper_functions2.py:plot_elems"]}
{"id": "C75", "title": "Nothing drawn is cut off, given limits are obeyed", "statement": "With lim_scale from 1 up to (not including) 100 everything plot_model draws lies inside the final axis limits, both axes of a plane view have equal extent and unit; limits given as a tuple of two, four or six numbers are the final limits; a negative lim_scale above -100 sets all limits to plus and minus its absolute value; with an absolute value of 100 or more no limits are set. With six limits the coordinate frame has half the size of the smallest upper limit.", "quantifier": "all models, views, scales and increments; any choice of limits by matplotlib that contains all drawn markers and lines; exact arithmetic for the containment, every arithmetic for given limits", "why_tests_cant": "The containment depends on the position of all nodes, loads and scales.", "anchors": ["src/trusspy/tools/helper_functions2.py:plot_elems", "src/trusspy/tools/helper_functions2.py:plot_force"]}
{"id": "C76", "title": "Colours show the contour quantity of the chosen result", "statement": "For a deformed increment and a contour quantity, line number k has the colour of the value of that quantity for element k in the chosen result; the colour bar has the automatic limits of C57, or the given ones unchanged (also when given in a tuple with the quantity). Without quantity, with an unknown name, and for the undeformed state all lines are grey and there is no colour bar.", "quantifier": "all models, results, views, increments and limits for which the call returns; every arithmetic", "why_tests_cant": "Which element has which colour depends on all results.", "anchors": ["src/trusspy/tools/plot_utilities.py:p_model", "src/trusspy/tools/helper_functions2.py:plot_elems"]}
{"id": "C77", "title": "The axis of plot_path names the nodes drawn above it", "statement": "plot_path draws the nodes of the path from left to right in the given order at different abscissae; a tick at the abscissa of a node bears the label of that node; every node of a path given as list has a tick; an axis is drawn exactly for a nonempty path; a range of consecutive labels has eleven ticks from its first to its last label; every other path has a tick at every node.", "quantifier": "all paths given as list (or tuple) or as range with any start, stop and step", "why_tests_cant": "Two branches with different abscissae; ranges with gaps, descending ranges and lists behave differently.", "anchors": ["src/trusspy/tools/helper_functions2.py:plot_pth", "src/trusspy/tools/plot_utilities.py:p_path"]}
{"id": "C78", "title": "Calls in the wrong order fail cleanly and the structure can be previewed", "statement": "Before build, run and every plot raise an exception and return nothing. After build and before run, equilibrium() and stiffness() raise AttributeError (no external forces object yet), while plot_model with increment 0 or -1 draws the structure as entered: for nodes named 1..n every node is shown at its entered coordinates with the first-step load entered for it, every element as a line between its two nodes, without contour whatever contour is asked for; other increments raise IndexError.", "quantifier": "for all models without results; for all valid inputs with nodes named 1..n in any order, all argsorts, all contours", "why_tests_cant": "the tests always build and run before plotting; the preview is a claim about all structures and all orders of entering them", "anchors": ["src/trusspy/model.py:205-260", "src/trusspy/tools/plot_utilities.py:34-130"]}
{"id": "C79", "title": "Every result of a run can be drawn", "statement": "For valid input with nodes named 1..n, after build and run return, plot_model returns a picture for every increment which names a result (from the front or from the end), every supported view, every documented contour and every admissible axis limits; hence a movie of any of these results is made unless a plain file named figures is in the way.", "quantifier": "for all valid inputs with nodes named 1..n, all solvers, all runs which return, all results, views, contours, limits, scales", "why_tests_cant": "tests draw a handful of pictures; absence of an exception for every result and every combination of arguments cannot be enumerated", "anchors": ["src/trusspy/tools/plot_utilities.py:34-130", "src/trusspy/tools/helper_functions2.py:150-345", "src/trusspy/tools/plot_utilities.py:173-200"]}
{"id": "C80", "title": "Malformed names of plotted quantities", "statement": "plot_history and plot_path choose the quantity by the first of the words Displacement, LPF, Force, State Variable which the given name contains. A name which asks for a displacement or force without ending in X, Y or Z raises KeyError, one which asks for a state variable without ending in a digit raises ValueError, and one which asks for a state variable of a model without state variables raises TypeError: no curve is returned. A name which contains none of the words (for example a misspelt one) is not rejected: the curve has the right number of points, all of them NaN.", "quantifier": "for all built and run models with distinct node labels, all names, all nodes of the model, all increments naming a result", "why_tests_cant": "tests use a few correct names; the claim is about every string", "anchors": ["src/trusspy/tools/plot_utilities.py:203-272"]}
{"id": "C81", "title": "Results do not depend on units, the convergence test does", "statement": "Let the same structure be entered in other units: coordinates and displacements times s, areas times a, moduli and yield stresses times e (forces times a*e). Then every evaluation of the residual that succeeds also succeeds in the other units, with the same stretches, stresses times e, bar forces, internal forces and residual times a*e, committed yield stresses times e and plastic strains unchanged; the stiffness is multiplied by a*e/s; a state is in equilibrium in one system of units exactly if it is in the other; a Newton correction is, converted, a Newton correction. The convergence test is not of this kind: at every state that is not an exact equilibrium, and for every tolerance, there is a unit of force in which the residual fails the test, and one in which it passes if the control equation is met.", "quantifier": "for all consistent structures on the reals (elastic and elastic-plastic bars mixed), all positive factors s, a, e, all states, loads, state variables, control components and tolerances", "why_tests_cant": "tests fix one system of units and use approximate comparisons; invariance is a statement about all factors and all structures", "anchors": ["src/trusspy/elements/element_definition.py:11-119", "src/trusspy/materials/material_definition.py:11-67", "src/trusspy/model.py:443-573", "src/trusspy/solvers/tpsolver.py:15-49", "src/trusspy/solvers/zerosearch.py:91-110"]}
{"id": "C82", "title": "Calls of the interface that never succeed", "statement": "plt_nodes, plt_elements and plt_extforces raise for every model and every argument (string or integer): TypeError for the first two, for the third TypeError if the argument is a string or no load was entered and AttributeError otherwise. A boundary handler never stores a thermal support: after any sequence of add_bound_T and add_bounds_T with any objects its state is the one the constructor left, and every further call raises AttributeError, except add_bounds_T of an empty list; objects of the class BoundaryT are rejected in every state, even if the missing attribute Tnodes is set by hand.", "quantifier": "for all models in all states (empty, entered, built, run), all arguments, all sequences of calls, all objects passed", "why_tests_cant": "a test shows that one call with one argument raises; that no state of the object and no argument makes the call work is a statement about all of them", "anchors": ["src/trusspy/model.py:575-582", "src/trusspy/tools/plot_utilities.py:18-30", "src/trusspy/handlers/handler_boundary.py:16-28", "src/trusspy/handlers/handler_boundary.py:73-85", "src/trusspy/core/boundary.py:37-57"]}
{"id": "C83", "title": "Getters of recorded results", "statement": "For every result of a built and run model, get_U() and get_r() are tables with one row of three numbers per node and the calls with flat=True return the same numbers row after row. For the undeformed result and every result which was not ended by the predictor, get_U(red=True) are exactly the entries of get_U(flat=True) at the free degrees of freedom, and all other entries are zero (for results ended by the predictor this is false). get_r(red=True) is a vector of zeros for every result, whatever the internal forces are.", "quantifier": "for all models that build and run, all solvers and settings, all results", "why_tests_cant": "tests look at a few numbers of a few results; agreement of three storage forms and staleness of one of them is a statement about every evaluation and every assignment in the solver", "anchors": ["src/trusspy/core/analysis.py:85-153", "src/trusspy/model.py:443-573", "src/trusspy/solvers/tpsolver.py:540-551"]}
{"id": "C84", "title": "Methods of the result handler", "statement": "A sequence of calls of copy_increment, remove_last_increment and duplicate_first_increment succeeds exactly if the list is never empty when one of them is called; otherwise it ends with IndexError. After it every result is one that was there before, the first result is the first one, and the number of results is the old one plus copies and duplications minus removals. A removal undoes a copy; after duplicate_first_increment get_result finds each result one position later, after copy_increment at the same position, and the last one is the last one.", "quantifier": "for all lists of results and all sequences of calls", "why_tests_cant": "there are infinitely many sequences of calls; the statement is an induction over them", "anchors": ["src/trusspy/handlers/handler_result.py:38-55"]}
{"id": "C85", "title": "Step width grows only after four accepted increments since the last reduction", "statement": "With step control, whenever a pass of the solver's inner loop has reduced the step width, at least four passes are accepted before a pass increases it again. The widths with which accepted passes were made are the recorded ones (dVmax). The number four is attained.", "quantifier": "for all problems that leave the recorded width alone, all settings with sensible factors, all starting points and all completed runs", "why_tests_cant": "the interplay of reductions, the counter b and the cap maxfac over arbitrarily many passes is an invariant of the whole run", "anchors": ["src/trusspy/solvers/tpsolver.py:52-195", "src/trusspy/solvers/tpsolver.py:330-334", "src/trusspy/solvers/tpsolver.py:488-516"]}
{"id": "C86", "title": "Congruent structures have congruent results", "statement": "Take valid input and mirror the structure, supports and loads along any of the coordinate axes, shift all nodes by one vector, list the elements in another order with new labels and exchange begin and end node of some of them. The second model then builds too, and its run either raises the same exception as the run of the first one or returns the same number of results, which belong together one by one: displacements, internal forces, residual, loads and stiffness are mirrored; load factor, step, stretch, normal force, stress and state variables of every element are the same. If a control component j0 is prescribed, its sign has to be mirrored. For a mere shift and reordering this holds for every linear solver, otherwise for every solver whose answer changes sign with the unknowns.", "quantifier": "all valid inputs on exact real arithmetic, all combinations of mirrored axes, all shifts, all orders of elements, all settings (with and without step control, any number of steps), all solvers that keep signs, all runs, successful or not", "why_tests_cant": "A test compares two given structures; the statement covers every structure and every way the path following may go (recycles, aborted steps, plastic elements).", "anchors": ["src/trusspy/elements/element_definition.py:27-119", "src/trusspy/solvers/tpsolver.py:198-567", "src/trusspy/model.py:126-199", "src/trusspy/model.py:201-441", "src/trusspy/model.py:443-572"]}
{"id": "C87", "title": "Printing does not change the computation", "statement": "`run` with all its print calls ends in the same way and with the same model as without them, and the log level has no influence on the results. Two cases are excluded because printing itself raises: with a level above one a given control component j0 raises TypeError, and step control with reduce = 0 raises ZeroDivisionError, above level one before anything is computed and otherwise at the first reduction of the step width.", "quantifier": "for all arithmetics, linear solvers, models, log levels and measured times", "why_tests_cant": "equality of two programs for all inputs and log levels, including all runs that raise", "anchors": ["src/trusspy/model.py:201-441", "src/trusspy/solvers/tpsolver.py:52-195", "src/trusspy/solvers/tpsolver.py:339-567", "src/trusspy/solvers/zerosearch.py:91-112"]}
{"id": "C88", "title": "The protocol reports what is recorded", "statement": "The text of a run that returns contains, from level one on, one line `final LPF` for every result after the first one, in order and with its load factor, increments numbered from one in every step, and head and end of every step; from level two on one line `write result i/n` per result. At every level an error message is printed for exactly the increments that failed, of their kind: at most one per step, for its last increment, and every later step is run nevertheless. If no error message is printed, every recorded increment is converged and bounded by the step width, or its predictor met the tolerances. `EXIT 1` is printed exactly if the last increment of a step did not fail and exceeds the limit.", "quantifier": "for all models with at least one step, all log levels, arithmetics and linear solvers", "why_tests_cant": "a statement about the whole text of runs of any length and any pattern of failures", "anchors": ["src/trusspy/model.py:307-410", "src/trusspy/solvers/tpsolver.py:339-342", "src/trusspy/solvers/tpsolver.py:516-565"]}
{"id": "C89", "title": "What is printed at which log level", "statement": "Every line printed by a run, also by one that raises, belongs to a level of at most `log` or to the few kinds that are printed at every level. Lines about changes of the step width only appear with step control, lines about earlier steps only in runs of several steps. With level 0, no step control and one step only failures, recyclings and reached limits are printed.", "quantifier": "for all models, log levels, arithmetics and linear solvers, also for runs that raise", "why_tests_cant": "absence of lines in all runs", "anchors": ["src/trusspy/model.py:204-441", "src/trusspy/solvers/tpsolver.py:139-190", "src/trusspy/solvers/tpsolver.py:339-565"]}
{"id": "C90", "title": "Head, summary and durations of the protocol", "statement": "The code fences written to a log file by the creation of a model, build and run are balanced exactly if the log level is above one (otherwise a single fence is written and the rest of the file is a code block). build prints at most its summary with the numbers of the built model, above level one, and is not changed by it. A run that returns prints four durations above level one: under the label cpu time the elapsed time (perf_counter), under the label wall time the processor time (process_time).", "quantifier": "for all models, log levels, measured times, arithmetics and linear solvers", "why_tests_cant": "statement about all texts; tests of the package do not look at the protocol", "anchors": ["src/trusspy/model.py:92-117", "src/trusspy/model.py:132-180", "src/trusspy/model.py:412-438"]}
{"id": "C91", "title": "Messages about the step width", "statement": "A message that the step width is reduced by a factor is printed exactly if it was divided by reduce, with the factor 1/reduce; a message that it is increased exactly if it was multiplied by the printed factor; without such messages the width is unchanged, except that the return to maxfac times the initial width is not announced. The message `(inactive) due to recycle` is printed for every failed Newton run above the lower bound that is not the last cycle, also if the width is reduced.", "quantifier": "for all settings, widths, cycles and outcomes of the Newton method, in every arithmetic", "why_tests_cant": "all branches of the step control for all numbers", "anchors": ["src/trusspy/solvers/tpsolver.py:135-195"]}
{"id": "C92", "title": "Plastic bars of a run obey the yield condition, the flow rule and isotropic hardening", "statement": "Over a whole run every plastic bar starts virgin; every result holds a yield stress (0 or at least Sy) and a plastic strain for it; an increment that is not accepted leaves both unchanged; in an accepted one the bar force is area times a stress s with s = E (strain - plastic strain), |s| at most the new yield stress, s on the yield surface if the plastic strain changed, plastic dissipation s dp = y |dp| >= 0 and dy = K |dp|. Hence the recorded yield stress is Sy + K times the sum of the absolute changes of the recorded plastic strain once an increment was accepted, and without hardening (K = 0) no accepted bar force exceeds Sy times the area.", "quantifier": "for all models that build and run, all plastic bars with valid constants, all results", "why_tests_cant": "history-dependent invariant over runs of every length, with rejected and recycled increments in between", "anchors": ["src/trusspy/materials/material_definition.py:umat_elplast_iso", "src/trusspy/elements/element_definition.py:truss", "src/trusspy/model.py:Model.equilibrium,Model.build,Model.run"]}
{"id": "C93", "title": "Virtual work and plastic limit load", "statement": "Every accepted increment of a run is an equilibrium in the sense of virtual work: for every virtual displacement that vanishes at the supports the work of the external loads (constant part plus load factor times the entered loads of the step) equals the work of the recorded bar forces on the virtual elongations, up to 10^(-ftol) times the size of the virtual displacement. If no bar hardens, the work of the loads is therefore bounded by the work of the yield forces Sy A on the elongations (kinematic theorem of limit analysis): no accepted increment exceeds the plastic limit load.", "quantifier": "for all entered structures, loads and supports, all runs, all accepted increments, all virtual displacements", "why_tests_cant": "quantifies over all virtual displacements of all structures", "anchors": ["src/trusspy/model.py:Model.build", "src/trusspy/model.py:Model.run", "src/trusspy/model.py:Model.equilibrium", "src/trusspy/solvers/tpsolver.py:pathfollow", "src/trusspy/solvers/zerosearch.py:newton"]}
{"id": "C94", "title": "Parallel bars act like one bar with the summed area", "statement": "If bars are replaced by parallel bars with the same nodes, material and state whose areas sum up to theirs, and bars without area are added, then an evaluation at the same displacements and load factor gives the same residual, the same nodal internal forces and the same stiffness matrix; every part has the stretch and the stress of the whole and its share of the force; bars without area carry no force.", "quantifier": "for all structures, all splittings into shares (also negative or zero ones that sum up to one), all materials and states, all displacements and load factors", "why_tests_cant": "all structures and all splittings", "anchors": ["src/trusspy/elements/element_definition.py:truss", "src/trusspy/model.py:Model.equilibrium,Model.stiffness"]}
{"id": "C95", "title": "Editing a built model and building again equals entering the edited structure", "statement": "build writes all defaults back into the tables. Two models entered with the same meaning (same nodes, same support and same load of every node, in whatever order and with defaults explicit or not) build to equal models. After a successful build, any sequence of add/delete calls on nodes, supports and loads leads to a model that builds, or fails to build, exactly as a fresh model entered with the completed and edited input. Replacing the support or the load of a node by delete + add + build always works and equals entering the replaced value from the start. Adding a second row for a node, or deleting a node without its support and load rows, makes the next build raise, even where the user never entered such a row.", "quantifier": "for all inputs with distinct labels and at least two nodes, all edit sequences, all sorting permutations", "why_tests_cant": "all models and all edit sequences", "anchors": ["src/trusspy/model.py:Model.build", "src/trusspy/handlers/handler_boundary.py:BoundaryHandler", "src/trusspy/handlers/handler_extforce.py:ExternalForceHandler", "src/trusspy/handlers/handler_node.py:NodeHandler"]}
{"id": "C96", "title": "A handler call that raised is noticed later, not silently ignored", "statement": "In a session that goes on after exceptions, the add calls of nodes, supports and loads leave a label without a row when they raise. If build succeeds after any sequence of add calls, none of them had raised. If an add_element call raised, every evaluation of equilibrium and stiffness raises and so does run (unless its first step has no increments). A raised add call leaves exactly the label (for elements also the columns before the first one of the wrong width), a raised delete call removes exactly the label (for elements also the rows of the columns before the first one that is too short).", "quantifier": "for all sequences of add calls with any arguments, all sorting permutations; for elements all states, vectors, settings, solvers", "why_tests_cant": "all call sequences with any pattern of failures", "anchors": ["src/trusspy/handlers/handler_node.py:NodeHandler", "src/trusspy/handlers/handler_boundary.py:BoundaryHandler.add_bound_U", "src/trusspy/handlers/handler_extforce.py:ExternalForceHandler", "src/trusspy/handlers/handler_element.py:ElementHandler.add_element", "src/trusspy/model.py:Model.build", "src/trusspy/model.py:Model.equilibrium"]}
{"id": "C97", "title": "A build that raised leaves no stale results and a model that can be corrected", "statement": "After a build that raised, results and analysis are empty and run raises. If the labels were refused (support or load given twice or for a node that does not exist), the tables have been completed and sorted and nothing was lost: after any corrections by add/delete calls the model builds, or fails to build, exactly as a fresh model entered with the completed and corrected input. In particular deleting a support or a load of a node that does not exist and building again equals never having entered it. If build raised because supports of the wrong width were entered and a node has none, the node labels are sorted, the first such node has a support label without a row, and everything else is as entered.", "quantifier": "for all inputs with distinct node labels and at least two nodes, all corrections, all sorting permutations; the first sentence for all models", "why_tests_cant": "all models and all sequences of corrections", "anchors": ["src/trusspy/model.py:Model.build", "src/trusspy/model.py:Model.run", "src/trusspy/handlers/handler_boundary.py:BoundaryHandler", "src/trusspy/handlers/handler_extforce.py:ExternalForceHandler"]}
{"id": "C98", "title": "The printed protocol is complete and its iteration tables are true", "statement": "The text of a run that returns consists of exactly: the summary of the parameters (log level 2), for every step its head, the constant load and the initial vector taken over (from the second step on), head, iteration table and final load factor of every recorded increment, the exit note if and only if the limit was exceeded, the list of results, the end of the step, and the durations. In the iteration tables every Newton iteration has one row, numbered from one, with the norm of the extended residual after it; the totals show cycle number, number of iterations including the predictor, control component, last norm, and the three biggest changes relative to the step width in order; the last cycle leads to the recorded vector, is converged if accepted, and ends with the message of its failure otherwise; cycles before the last one end with the recycling note; cycles are numbered consecutively, except that with step control the last allowed number is repeated.", "quantifier": "for all inputs, settings, log levels, linear solvers, sorting functions that sort, arithmetic; all runs that return", "why_tests_cant": "all runs with any number of steps, increments, cycles and iterations", "anchors": ["src/trusspy/model.py:Model.run", "src/trusspy/solvers/tpsolver.py:pathfollow", "src/trusspy/solvers/zerosearch.py:newton"]}
{"id": "C99", "title": "Small steps follow the equilibrium path", "statement": "Let a truss (elastic, or plastic and below yield along the path) have a continuous equilibrium path parametrised by one component (a displacement or the load factor), along which every bar keeps a length and the stiffness matrix extended by the control equation is regular. With this component fixed as control component, without step control, with an exact linear solver, a small enough step width and residual tolerance, and enough iterations, pathfollow returns; every increment is accepted; in the m-th record the control component is the one of the path at m times the step width exactly; all other components lie within a constant times the residual tolerance of the path, the constant not depending on the number of increments; and all increments are recorded unless the limit is exceeded.", "quantifier": "for all trusses that are elastic or stay below yield, equilibrium paths, control components, small step widths and tolerances, numbers of increments, solvers that solve regular systems exactly", "why_tests_cant": "any number of increments along any path of any truss; a test only compares some points of some paths", "anchors": ["src/trusspy/solvers/tpsolver.py:pathfollow", "src/trusspy/solvers/zerosearch.py:newton", "src/trusspy/model.py:Model.stiffness", "src/trusspy/model.py:Model.equilibrium"]}
{"id": "C100", "title": "Structures with one degree of freedom are followed through limit points and snap-through", "statement": "With one free degree of freedom and displacement control, pathfollow records the displacements u0 + m h exactly, and load factors within a constant times the residual tolerance of the static load for this displacement - whatever the sign of the tangent stiffness, in particular through limit points. For the symmetric two-bar truss (von Mises truss) the recorded load factor follows 2 E A (H - s)(1/l - 1/L): positive up to the flat position, negative between flat and mirrored position, and positive afterwards.", "quantifier": "for all structures, elastic or below yield, with one loaded degree of freedom; for the two-bar truss all widths, heights, stiffnesses; all small step widths and tolerances and numbers of increments", "why_tests_cant": "all geometries and stiffnesses, all step widths and path lengths", "anchors": ["src/trusspy/solvers/tpsolver.py:pathfollow", "src/trusspy/solvers/zerosearch.py:newton", "src/trusspy/elements/element_definition.py:truss"]}
{"id": "C101", "title": "A run follows the equilibrium path of the entered structure", "statement": "If the truss the user entered (nodes, supports, loads, elements) has a regular equilibrium path under the loads of the first step, parametrised by one displacement or by the load factor, on which plastic elements stay below yield, then every model filled with this input and run with this component as fixed control component, small enough step width and residual tolerance and enough iterations shows in its results the points of that path, one after the other: displacements of all nodes and load factor up to a constant times the tolerance, the control component exactly. The increments of the step end only because all are done or the limit is exceeded. With one step, build and run return. In particular the two-bar truss entered by the user is traced through snap-through.", "quantifier": "for all entered trusses with a regular path below yield, all orders of the calls, control components, small step widths, tolerances, numbers of increments and steps, limits", "why_tests_cant": "all structures and paths; all step widths and tolerances; tests compare with stored numbers of single examples", "anchors": ["src/trusspy/model.py:Model.run", "src/trusspy/solvers/tpsolver.py:pathfollow", "src/trusspy/solvers/zerosearch.py:newton", "src/trusspy/elements/element_definition.py:truss"]}
{"id": "C102", "title": "With free choice of the control component small steps follow any regular equilibrium path", "statement": "In its default mode (pathfollow chooses the control component itself in every increment, uses the predictor, with or without step control) and with exact arithmetic and linear solver, pathfollow started on a regular equilibrium path of a truss (elastic, or below yield along the path) with small enough step widths and tolerances and enough iterations returns, accepts every increment and records vectors within a constant times ftol of points of the path whose parameters strictly grow. Neighbouring points differ by at most (1+eta) W times the step width in every component and at least (1-eta) times the step width in some component. Load factor and every single displacement may turn back along the path: limit points and snap-back points are passed without the direction being reversed. In particular the two-bar truss is followed through snap-through for every ratio of load step to displacement step.", "quantifier": "for all trusses that are elastic or stay below yield, regular equilibrium paths, step width ratios, eta > 0, bounds W of the enlargement by step control, small step widths and tolerances, numbers of increments, limits", "why_tests_cant": "all paths and step widths; tests run single examples and compare with stored numbers", "anchors": ["src/trusspy/solvers/tpsolver.py:pathfollow", "src/trusspy/solvers/zerosearch.py:newton"]}
{"id": "C103", "title": "A run in default mode follows the equilibrium path of the entered structure", "statement": "If the truss entered by the user has, with plastic elements below yield, a regular equilibrium path under the loads of the first step (stated on node labels, entered coordinates, element properties, supports and loads; the load factor grows at first, afterwards load factor and displacements may turn back, and to first order the only equilibrium motions allowed by the supports are multiples of the motion along the path), then build and run with the default control mode (component chosen by the program, predictor on, with or without step control), small du and dlpf in fixed ratio, small tolerances and enough iterations record in the first step points of this path with strictly growing path parameters up to a constant times the tolerance, each step between (1-eta) and (1+eta)W times the widths; increments stop only when all are done or the limit is exceeded. With one step build and run return. In particular the two-bar truss entered by the user snaps through in the default mode.", "quantifier": "for all valid inputs, orders of the calls, argsort implementations, regular equilibrium paths below yield, ratios of widths, eta > 0, bounds W of the enlargement, small widths and tolerances, increments, limits, numbers of steps", "why_tests_cant": "all structures, paths and settings; tests compare single runs with stored numbers", "anchors": ["src/trusspy/model.py:Model.run", "src/trusspy/model.py:Model.build", "src/trusspy/solvers/tpsolver.py:pathfollow"]}
{"id": "C104", "title": "Stable trusses: runs follow the equilibrium path, small loads give linear truss theory", "statement": "Let the elements of the entered truss be stiff (a length, a positive area, a positive modulus; elastic or plastic) and the structure no mechanism. Then linear truss theory has exactly one solution v for the entered loads; there is an equilibrium path from the undeformed state on, the only equilibria near it, starting in the direction of v; runs controlled by the load factor with small steps h return and record exactly the load factors h, 2h, ... and the equilibrium displacements of these load factors up to a multiple of the tolerance; and for every eps, runs in the default mode which stay near the undeformed state record displacements equal to load factor times v up to eps times the load factor and a multiple of the tolerance.", "quantifier": "all valid inputs that are stable, all orders of entering, all settings with small steps and tolerances, every exact linear solver and every sort", "why_tests_cant": "a test compares single structures with linear theory at single load factors; it cannot show for all stable trusses that the solver finds the equilibrium branch of the undeformed state and no other", "anchors": ["src/trusspy/model.py:Model.run", "src/trusspy/solvers/tpsolver.py:pathfollow", "src/trusspy/solvers/zerosearch.py:newton", "src/trusspy/elements/element_definition.py:truss"]}
{"id": "C105", "title": "Path following tolerates an inexact linear solver", "statement": "If the linear solver returns, for regular matrices, vectors that leave a residual of at most an eighth of the largest right-hand side entry, then newton still converges to a regular zero from everywhere near it (by a factor 3/4 per iteration), and a run with fixed control component and small steps still returns, accepts every increment and records points of the equilibrium path of the entered structure up to a multiple of the tolerance; the path parameter of the i-th result is i times the step width up to i times the tolerance.", "quantifier": "all valid inputs with a regular equilibrium path below yield, all orders of entering, all settings with small steps and tolerances, every linear solver with relative residual at most 1/8", "why_tests_cant": "a test sees one build of SciPy on single matrices; the statement covers every linear solver with a bounded residual, hence every factorisation and every rounding of it", "anchors": ["src/trusspy/solvers/zerosearch.py:newton", "src/trusspy/solvers/tpsolver.py:pathfollow", "src/trusspy/model.py:Model.run"]}
{"id": "C106", "title": "A run with several steps follows the joined equilibrium paths", "statement": "If an entered truss with loads for several steps has regular equilibrium paths (plastic elements below yield), each starting where the one before ends, on which the loads of earlier steps are held at their last load factors while those of the current step grow, and on which the fixed control component moves by a given amount per step, then for small steps dividing these amounts and small tolerances Model.build and Model.run return, and the results are the undeformed state followed, step after step, by the points of the paths up to a multiple of the tolerance, with the right step number and with the control component exact.", "quantifier": "all valid inputs with joined regular equilibrium paths, all numbers of steps, all orders of entering, all settings with fixed control, small steps and tolerances, and limits that the paths do not reach", "why_tests_cant": "a test runs single load histories; that the convergence errors with which a step ends, and which then act as held loads in all later steps, never accumulate beyond a multiple of the tolerance concerns all of them", "anchors": ["src/trusspy/model.py:Model.run", "src/trusspy/core/analysis.py:Analysis", "src/trusspy/solvers/tpsolver.py:pathfollow"]}
{"id": "C107", "title": "Plastic trusses that do not yield follow the path of the elastic truss", "statement": "Replace the plastic elements of an entered truss by elastic ones with the same moduli and areas. If the stresses on a regular equilibrium path of that elastic truss stay below the yield stresses of the original elements, then build and run of the plastic truss return and record the points of this path up to a multiple of the tolerance - with a fixed control component, in the default mode, and with several load steps. In particular the plastic two-bar truss whose yield stress exceeds the stress in its flat position is pushed through to its turned-over position with the load of the elastic truss.", "quantifier": "all valid inputs with plastic elements of any positive modulus and yield stress and nonnegative plastic modulus, all regular paths of the elastic truss below yield, all settings with small steps and tolerances", "why_tests_cant": "that plastic elements behave elastically in every Newton iterate that the solver visits, not only in the recorded states, concerns all structures and step widths; tests run single examples", "anchors": ["src/trusspy/model.py:Model.run", "src/trusspy/solvers/tpsolver.py:pathfollow", "src/trusspy/materials/material_definition.py:umat_elplast_iso", "src/trusspy/elements/element_definition.py:truss"]}
{"id": "C108", "title": "Structures with one free direction driven by its displacement: exact results through yielding and unloading", "statement": "If the entered truss has exactly one free direction, loaded in every step, and the displacement is the fixed control component, then build and run return for every step width, tolerance and any material constants, and the results are known in advance: the displacement grows by one step width per increment over all steps, the state variables of the plastic elements in every result are those obtained by following the strain history of the element increment by increment (yielding, unloading, yielding again), and the load factors balance the internal force of that history together with the held loads of earlier steps up to the tolerance. Three iterations suffice. For the plastic two-bar truss pushed through in two increments the run reports the permanent set: the load 2 E gamma A H / L and plastic strain -gamma in the turned-over position, where the elastic truss needs no load.", "quantifier": "all valid inputs with one free direction, all step widths, all numbers of steps and increments, all material constants with positive modulus and yield stress and nonnegative plastic modulus, all exact linear solvers", "why_tests_cant": "that the recorded state variables are those of the accepted states, for every history of loading and unloading, concerns all sequences of increments; tests run single load paths", "anchors": ["src/trusspy/model.py:Model.run", "src/trusspy/solvers/tpsolver.py:pathfollow", "src/trusspy/solvers/tpsolver.py:newton", "src/trusspy/materials/material_definition.py:umat_elplast_iso", "src/trusspy/elements/element_definition.py:truss"]}
{"id": "C109", "title": "Newton iteration in rounded arithmetic converges and is accurate up to the tolerance", "statement": "Near a zero with regular derivative, newton converges also in rounded arithmetic: there are a radius, a bound on the errors and constants, which depend on the equation only, such that for every number format with rounding error delta, for every pair of functions that return the residual and its derivative up to an error eta (at least a constant times delta and below the bound), and for every linear solver with small relative and absolute errors, newton started within the radius reports success as soon as C((3/4)^k + eta) is below both tolerances and k+1 iterations are allowed; the returned vector stands for a point within a constant times ftol of the zero.", "quantifier": "all number formats with bounded rounding errors (also with overflow and undefined results for huge arguments), all residual functions with regular zeros, all approximate linear solvers, all start vectors in the radius, all tolerances above the accuracy of the arithmetic", "why_tests_cant": "the claim is about every number format and every accuracy at once; tests run double precision only, and a stopping test that can never be met in rounded arithmetic shows up only for some tolerances", "anchors": ["src/trusspy/solvers/tpsolver.py:newton", "src/trusspy/solvers/tpsolver.py:norm2"]}
{"id": "C110", "title": "A truss evaluated in rounded arithmetic has the exact forces and stiffness up to a multiple of the rounding error", "statement": "For all C and B there is a constant L such that in every number format with rounding error d <= 1/L, for every structure of at most B elastic bars with coordinates, stiffness data and loads up to C, and at all displacements and load factors up to C at which no bar is shorter than 1/sqrt(C): Model.equilibrium returns, without exception, a residual vector and stores stretches, stresses and normal forces that differ by at most L*d from those computed in real numbers, and Model.stiffness returns a matrix whose entries differ by at most L*d from the exact ones. L depends neither on the number format nor on the structure.", "quantifier": "all C, B; all number formats whose operations are correct up to d; all elastic structures with at most B bars, all supports, loads, displacements and load factors within the bounds; all earlier states of the analysis object", "why_tests_cant": "The bound covers every rounding behaviour and every structure; a test runs one floating-point format on one structure, and has no exact real-number reference to compare with.", "anchors": ["src/trusspy/model.py:equilibrium", "src/trusspy/model.py:stiffness", "src/trusspy/elements/element_definition.py", "src/trusspy/materials/material_definition.py"]}
{"id": "C111", "title": "Path following in rounded arithmetic stays near the exact equilibrium path", "statement": "Given an elastic structure and a path of regular equilibria in real numbers, there are a step width h0, an error bound e0 and constants k, L, G such that in every number format with rounding error d <= e/G, with every linear solver of relative error at most 1/32 and absolute error at most e <= e0 on systems of size and condition up to k, path following with fixed control component and step width h < h0, started at the beginning of the path with enough iterations (G((h+ftol)(3/4)^N + e) below both tolerances, nfev > N), returns without exception; every increment is accepted; the m-th recorded vector stands for a vector within L*ftol of a point of the exact path, whose parameter is m*h up to 6*m*ftol; and all requested increments are recorded unless the component limit is exceeded. The constants depend neither on the number format nor on the solver.", "quantifier": "all elastic structures and regular equilibrium paths; all number formats with small enough rounding error, all linear solvers accurate up to e, all step widths, tolerances and numbers of increments within the bounds", "why_tests_cant": "A test runs one floating-point format on one structure and cannot compare with the exact path; here the bound is uniform over formats, roundings and solvers.", "anchors": ["src/trusspy/solvers/tpsolver.py:pathfollow", "src/trusspy/solvers/zerosearch.py:newton", "src/trusspy/model.py:equilibrium", "src/trusspy/model.py:stiffness"]}
{"id": "C112", "title": "IEEE 754 arithmetic, in particular double precision, meets the accuracy requirements of C109 to C111", "statement": "Let the operations of a number format be those of IEEE 754 with p >= 8 binary digits, smallest weight at most 2^(-4p) and largest number at least 2^(4p): sums, differences, products, quotients and roots are numbers closest to the exact results as long as these are in range, negation, absolute value and comparisons are exact, np.linalg.norm is the root of the squares added in any order and grouping, with or without fused multiply-add, and powers of ten may be wrong in the last digits. Then it is a number format with rounding error 2^(4-p) as required by C109, C110 and C111. For doubles (53 digits, 2^-1074, (2^53-1) 2^971) the rounding error is 2^-49. So Newton's method, the evaluation of trusses and path following behave in double precision as stated there.", "quantifier": "all number formats with IEEE 754 operations, all ways of breaking ties, all results of overflow and of undefined operations, all orders of summation", "why_tests_cant": "A test sees single results of one machine; whether every operation used stays within the error budget of C109 to C111, for all arguments, needs a proof.", "anchors": ["src/trusspy/solvers/zerosearch.py:newton", "src/trusspy/model.py:equilibrium", "src/trusspy/solvers/tpsolver.py:pathfollow"]}
{"id": "C113", "title": "A complete run in rounded arithmetic follows the equilibrium path", "statement": "Let an elastic truss be entered in numbers of a format with small rounding error (C109; IEEE doubles by C112), and let the truss with the real numbers these stand for have a path of regular equilibria under the loads of the first step, without an element losing its length. Then, with fixed control component and small enough step width and errors, build and run return, and the results hold the undeformed state and points of the path: load factor and displacements of all nodes stand for those of a point of the path up to a constant times the tolerance, supported components are zero, and the parameter of the i-th point is i times the step width up to 6 i times the tolerance. All increments are recorded unless the limit was exceeded. The step width, the bound on the errors and the constants depend only on the truss and the path, not on the number format, the linear solver or the order in which nodes and elements are sorted.", "quantifier": "all elastic trusses, all regular equilibrium paths, all number formats and linear solvers with small errors, all settings with fixed control component and one step, all sorting functions", "why_tests_cant": "Tests compare a few runs on one machine with reference values; here all trusses, formats, solvers and settings are covered, from the calls that enter the data to the stored results.", "anchors": ["src/trusspy/model.py:build", "src/trusspy/model.py:run", "src/trusspy/solvers/tpsolver.py:pathfollow"]}
{"id": "C114", "title": "NaN and infinity never pass as a result", "statement": "In every arithmetic that treats NaN and infinity as IEEE 754 does: in every accepted increment of every run the load factor is finite, and for every entered element with a free component at one of its ends the recorded force, stress, stretch and the displacements of its nodes are finite. Consequently unusable data never lead to an accepted increment: if such an element has no usable modulus (for example none was entered), area or coordinates, or has length zero, every increment of every run that returns ends with an error message; the same holds for every increment of a step whose load on a free component is not finite.", "quantifier": "all entered models, all sorting functions, all linear solvers, all settings with a finite tolerance, all number formats in which non-finite values propagate", "why_tests_cant": "Tests run sound structures; whether some unsound input or some overflow in an iteration slips through the convergence test is a statement about all inputs.", "anchors": ["src/trusspy/solvers/tpsolver.py:pathfollow", "src/trusspy/core/equilibrium.py", "src/trusspy/elements/element_definition.py", "src/trusspy/model.py:run"]}
{"id": "C115", "title": "Elements take their properties from the given argument in every documented form", "statement": "Element(...) accepts its properties as lists, tuples or arrays under the names mprop and gprop, and under the names material_properties and geometric_properties; it raises TypeError iff a property is given under both names, and otherwise carries the given values. Elements made without properties do not influence each other.", "quantifier": "all argument combinations, all lists, tuples and arrays, all sequences of creating and editing lists before the call", "why_tests_cant": "The number of combinations of argument forms is unbounded and the tests only pass lists.", "anchors": ["src/trusspy/core/element.py:Element.__init__", "src/trusspy/handlers/handler_element.py:add_element"]}
{"id": "C116", "title": "The number of correct digits doubles in every iteration", "statement": "Near a regular solution of the extended equilibrium equations newton converges quadratically: k + 1 iterations suffice as soon as 2^(-2^k) is below the tolerances. Hence Model.run with small steps follows a regular path of the entered truss with a number of iterations per increment that depends only on the digits of the tolerances: N + 1 iterations (N + 2 with the predictor of the default mode) reach 3/10 * 2^N digits, so that nfev = 8 suffices for 38 (19) digits.", "quantifier": "all trusses with a regular path below yield, all step widths and tolerances below bounds of the structure, all digits, one or several steps, fixed control component or default mode", "why_tests_cant": "A rate of convergence concerns all starting points near all solutions; a test shows the number of iterations of one case.", "anchors": ["src/trusspy/solvers/zerosearch.py:newton", "src/trusspy/solvers/tpsolver.py:pathfollow", "src/trusspy/handlers/handler_settings.py:__init__"]}
{"id": "C117", "title": "Under small loads the state of a stable truss depends on the loads that act, not on the load history", "statement": "A truss of stiff elements that is no mechanism has equilibrium displacements D(f) for all small loads f, continuous in f, zero for f = 0, and the only ones near the undeformed state. Whatever loads are entered and in whatever steps they are applied under load control, as long as the loads acting together stay small, build and run return and every recorded state has exactly the load factor of its increment and, up to a multiple of the tolerance, the displacements D of the loads acting at that moment. Hence two runs of the same truss with the same final loads end in the same state although the loads were applied in a different order or in other steps, and a run that removes all loads again ends in the undeformed state.", "quantifier": "for all stable trusses (elastic, or plastic below yield), all entered loads, all numbers of steps, increments, step widths below a bound, tolerances, limits, sorting routines and exact linear solvers", "why_tests_cant": "A test compares a few load sequences of one structure with one tolerance; path independence for every sequence of loads needs the inverse function theorem for the equilibrium equations and an error bound that carries over from step to step.", "anchors": ["src/trusspy/model.py:Model.run", "src/trusspy/model.py:Model.build", "src/trusspy/solvers/tpsolver.py:pathfollow", "src/trusspy/solvers/zerosearch.py:newton"]}
{"id": "C118", "title": "A run that raises keeps the results of the completed steps and leaves no other trace", "statement": "If run raises on a built model and the user catches the exception, there is a number k of completed steps such that every analysis with more than k steps raises this exception. The results of an analysis of k steps are all in the result list, with the load factors at the ends of the steps, followed by one working copy of the last state; for k = 0 the undeformed state is there twice. Tables, dimensions and settings are unchanged. After changing settings and building again the model is the same as if it had been built with these settings from the start, so the interrupted run has no influence on the next analysis.", "quantifier": "for all models, settings, environments (linear solver, sorting), exceptions and states in which the interrupted calculation leaves the analysis object", "why_tests_cant": "An exception can leave run at any evaluation of any iteration of any step; a test triggers a few of them and compares a few fields.", "anchors": ["src/trusspy/model.py:Model.run", "src/trusspy/model.py:Model.build", "src/trusspy/handlers/handler_result.py:ResultHandler.duplicate_first_increment", "src/trusspy/handlers/handler_result.py:ResultHandler.copy_increment"]}
{"id": "C119", "title": "Energy balance along the recorded path: loads, stored energy, plastic work", "statement": "From one accepted result (or the undeformed state) to the next accepted one, the mean of the loads acting in the two results, times the displacements between them, equals the change of the elastic energy stored in the entered bars plus the work of the mean bar forces on the plastic elongations, up to an explicit error: for each bar a quarter of what it turns (square of the distance of its axes minus square of its change of length) times the change of its force per length, plus the force tolerance times the sum of the displacement components. The plastic work is never negative. For elastic structures the error per bar is E A times turning times change of length over four times the product of both lengths, so of third order in the step width. Summed up over a run, the energy stored in the bars never exceeds the work done by the loads by more than these errors.", "quantifier": "for all entered trusses of elastic and plastic bars with positive properties and lengths, all loads, steps, settings and linear solvers, exact arithmetic; consecutive results that the solver accepted, no bar collapsed to a point", "why_tests_cant": "The balance ties every pair of neighbouring results of every run together; a test can compare the two sides for a few structures only, and does not give the bound on the error.", "anchors": ["src/trusspy/model.py:Model.run,Model.equilibrium", "src/trusspy/solvers/tpsolver.py:newton", "src/trusspy/elements/element_definition.py:truss", "src/trusspy/materials/material_definition.py:umat_el,umat_elplast_iso"]}
{"id": "C120", "title": "Runs with bundles of parallel elements, elements without area and spare state variables", "statement": "Replace every element of a model by parallel elements of the same material whose areas sum up to its area, add elements without area anywhere, and choose any number of state variables in the settings. Both models build, and the runs raise the same exception or return the same number of results, equal one by one in displacements, internal forces, residuals, load factors, control components and step widths. Every part has the stretch and the stress of the whole, its share of the normal force, and the same state variables if it is plastic; elements without area have no normal force. In particular the number of state variables (which build raises to 2 as soon as there is a plastic element) has no influence on the results.", "quantifier": "for all valid input, all shares, all settings, all linear solvers and sort routines, exact arithmetic", "why_tests_cant": "Every way of splitting the elements and every history of increments, recycles and steps would have to be compared.", "anchors": ["src/trusspy/model.py:Model.build,Model.run,Model.equilibrium,Model.stiffness", "src/trusspy/elements/element_definition.py:truss", "src/trusspy/core/analysis.py:Analysis"]}
{"id": "C121", "title": "Input without influence on a run", "statement": "Two models have the same settings, nodes and supports. Their elements agree one by one in label, nodes, material type, first geometric property (area) and the material properties read by the law (Young's modulus for type 1, the first three otherwise); the element type and all further properties may differ. Their loads agree, in the analysed steps, on the components that are not supported; loads on supported components and load columns for steps that are not analysed may differ. Then both runs raise the same exception or return the same results one by one: displacements, internal forces, stretches, normal forces, stresses, state variables, stiffness, load factors, status, and residuals on the active degrees of freedom; only the stored loads and the residuals at supported components may differ.", "quantifier": "for every number type (no laws of arithmetic used), all entered data, all settings, all linear solvers and sort routines, all bounds on the number of solver steps", "why_tests_cant": "The claim is about all values of the ignored input and all histories of increments, recycles and steps; a test fixes a few values.", "anchors": ["src/trusspy/model.py:Model.build,Model.run,Model.equilibrium,Model.stiffness", "src/trusspy/elements/element_definition.py:truss", "src/trusspy/materials/material_definition.py:umat_el,umat_elplast_iso", "src/trusspy/handlers/handler_element.py"]}
{"id": "C122", "title": "Symmetric structures under symmetric loads have symmetric results", "statement": "A motion x -> Q x + t with Q orthogonal (a reflection or a rotation) maps the entered structure to itself: node n to node nu(n), which has the moved coordinates, free directions to free directions, the loads of all analysed steps to those of the image nodes, and element k to element pi(k) of the same material and area, possibly with its ends interchanged. Then the model builds, and in every run that returns, every recorded state is mapped to itself: displacement, internal force and residual at nu(n) are Q times those at n, and elements k and pi(k) have equal stretch, normal force, stress and state variables. In particular nodes on a mirror plane never leave it. A solver which picks one of several solutions of a singular system may leave the symmetric path.", "quantifier": "for all valid inputs over the real numbers and all symmetries of them, elastic and plastic elements, all settings (control modes, step widths, numbers of steps and increments), all bounds on the number of solver steps, all linear solvers that return only solutions, and only where these are unique", "why_tests_cant": "A test can look at one symmetric truss; the claim covers every symmetry group element, every structure and every path through the solver, including increments that are repeated with smaller steps and plastic histories.", "anchors": ["src/trusspy/model.py:Model.run,Model.equilibrium,Model.stiffness", "src/trusspy/solvers/tpsolver.py:pathfollow,newton", "src/trusspy/elements/element_definition.py:truss", "src/trusspy/core/analysis.py"]}
{"id": "C123", "title": "Elements between fully supported nodes do not influence a run", "statement": "Add elements, at any positions of the element list, whose nodes have no free direction. Both models build, and the runs raise the same exception or give the same number of results with, one by one: the same displacements, load factors, loads, reduced stiffness matrices, control components and step widths; the same stretch, normal force, stress and state variables of every element of the first model; the same residual on the free directions and the same internal forces and residuals at every node where no added element ends.", "quantifier": "for every number type (no laws of arithmetic are used, so also for floats with NaN and rounding), all valid inputs, all linear solvers and sorting routines, all settings, all bounds on the number of solver steps; if plastic elements are added, the first model already has state variables", "why_tests_cant": "Assembly writes the added elements into shared force and stiffness arrays; only a proof over all element orders, positions and histories shows that nothing leaks into the free directions, bit by bit.", "anchors": ["src/trusspy/model.py:Model.equilibrium,Model.stiffness,Model.run", "src/trusspy/elements/element_definition.py:truss", "src/trusspy/solvers/tpsolver.py:pathfollow,newton"]}
{"id": "C124", "title": "Any two results of a run in a row obey the settings of the model", "statement": "In the results of Model.run (after build): the step widths noted by an increment with a Newton solution are one common multiple of settings.du (free displacements) and settings.dlpf (load factor); the multiple is one without step control and lies in (minfac/reduce, maxfac*(1+increase)] with it. From the result before to that of an accepted increment every free displacement and the load factor move by at most dxtol times these widths (unless the control component is fixed), and the control component moves by its width in the direction of its sign up to 10^-ftol, where the load factor counts from zero in the first result of a step. A step has at most settings.incs results (the entry of the step, if it is a tuple), and no result of a step follows one whose limited component is beyond settings.xlimit of that step. If the control component is chosen freely, the linear solver is exact and the smallest possible widths are not below 10^-ftol + 10^-xtol, then in every accepted increment some component moves by plus or minus its width, up to 10^-ftol.", "quantifier": "all models which build and run, all steps and increments, all linear solvers; first part: exact arithmetic, positive du and dlpf, sensible step control; second part: every arithmetic", "why_tests_cant": "The settings pass through the model, the step loop, the solver call and the step control; a swapped pair or a wrong start of a later step shows only in certain load histories.", "anchors": ["src/trusspy/model.py:Model.run", "src/trusspy/solvers/tpsolver.py:pathfollow"]}
