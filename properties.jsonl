{"id": "C01", "title": "Grid shape", "statement": "Right after construction, or after update_grid(), the grid of a feature is the arithmetic progression lb, lb+s, lb+2s, ... with the effective step s > 0 (lb, ub and s rounded outwards to integers for integer features); it is strictly increasing, its first value is lb and its last value is at least ub and less than ub + s.", "quantifier": "every column of finite values, every accepted bounds / step type / step size / variable type", "why_tests_cant": "the number of grid points is a ceiling of a quotient of arbitrary reals; off-by-one errors appear only for particular ratios of range to step", "anchors": ["recourse/action_set.py:_ActionElement.update_grid", "recourse/action_set.py:_ActionElement.__init__"]}
{"id": "C02", "title": "Offered values stay within the bounds", "statement": "Every value on the grid of a feature lies in [lb, ub]. (The code violates this: np.arange(lb, ub + step, step) overshoots. It holds exactly when the effective step divides ub - lb; otherwise the last grid value is strictly larger than ub.)", "quantifier": "every accepted combination of bounds, step type, step size and variable type", "why_tests_cant": "the bundled data sets use ranges on which the overshoot is not looked at; a claim about all ranges and steps is needed", "anchors": ["recourse/action_set.py:_ActionElement.update_grid"]}
{"id": "C03", "title": "Setters of bounds and steps act on what is offered", "statement": "Assigning bounds, lb, ub, step_size, step_type or variable_type changes the feasible values of the feature accordingly. (The code violates this: after any sequence of such assignments the feasible values are those of the grid of the last update_grid(); only an explicit update_grid() makes them effective.)", "quantifier": "every finite sequence of attribute assignments on a feature, every point x", "why_tests_cant": "it is a statement about all histories of assignments", "anchors": ["recourse/action_set.py:_ActionElement.bounds", "recourse/action_set.py:_ActionElement.step_size", "recourse/action_set.py:_ActionElement.update_grid", "recourse/action_set.py:_ActionElement.feasible_values"]}
{"id": "C04", "title": "Doing nothing is always offered", "statement": "feasible_values(x) always contains x (as an action: 0). (False for an integer-typed feature at a non-integral x, where numpy truncates the inserted point; true in every other case.)", "quantifier": "every feature state reachable through the API, every finite x, both values of drop_suboptimal", "why_tests_cant": "depends on the position of an arbitrary x relative to an arbitrary grid", "anchors": ["recourse/action_set.py:_ActionElement.feasible_values"]}
{"id": "C05", "title": "Feasible values are sorted without duplicates", "statement": "The list returned by feasible_values(x) is strictly increasing.", "quantifier": "every feature with a grid produced by update_grid, every x (integral if the grid is integer-typed)", "why_tests_cant": "depends on where x falls in an arbitrary grid, including x on, between and outside grid points", "anchors": ["recourse/action_set.py:_ActionElement.feasible_values"]}
{"id": "C06", "title": "Direction limits are respected", "statement": "With step_direction = +1 (-1) no offered value is below (above) x; with drop_suboptimal, no offered value moves against the flip direction.", "quantifier": "every feature with a grid produced by update_grid, every x (integral if the grid is integer-typed)", "why_tests_cant": "universally quantified over features, points and directions", "anchors": ["recourse/action_set.py:_ActionElement.feasible_values"]}
{"id": "C07", "title": "Immutable features and provenance of values", "statement": "A non-actionable feature is offered only the value x itself (action 0), and every offered value other than x is a grid value; conversely every grid value compatible with the step direction (and flip direction) is offered.", "quantifier": "every feature state reachable through the API, every x (integral if the grid is integer-typed)", "why_tests_cant": "exact characterisation of a set for all inputs", "anchors": ["recourse/action_set.py:_ActionElement.feasible_values", "recourse/action_set.py:_ActionElement.actionable"]}
{"id": "C08", "title": "Percentile scores are a strictly increasing function on the grid range", "statement": "percentile(.) is strictly increasing on [first grid value, last grid value] and takes values strictly between 0 and 1 there; outside it is constant 1e-6 on the left and 1 - 1e-6 on the right. (Monotonicity across the ends of the grid is false.)", "quantifier": "every feature, every positive density estimate, all pairs of points", "why_tests_cant": "monotonicity over a continuum of points and all density estimates", "anchors": ["recourse/action_set.py:_ActionElement.update_interpolator", "recourse/action_set.py:_ActionElement.percentile"]}
{"id": "C09", "title": "Bounds objects are ordered and cover the request", "statement": "Whenever a bounds object is accepted, lb <= ub; absolute bounds are stored verbatim (floats) or rounded outwards (integer columns), missing ones default to min / max of the data, and percentile bounds lie between min and max of the data rounded outwards.", "quantifier": "all data columns, all requested bounds and bound types", "why_tests_cant": "all columns and all percentiles, including interpolated ones", "anchors": ["recourse/action_set.py:_BoundElement"]}
{"id": "C10", "title": "Variable type detection", "statement": "A column is typed bool iff every value is 0 or 1, int iff all values are integers and some value is not 0/1, float otherwise; the type does not depend on row order or on duplicated rows.", "quantifier": "all non-empty columns of finite numbers", "why_tests_cant": "all columns", "anchors": ["recourse/action_set.py:_determine_variable_type"]}
{"id": "C11", "title": "compatible is exactly possible usefulness", "statement": "For an aligned feature, compatible is True iff it is actionable, has a nonzero coefficient and its step direction does not oppose the flip direction; when it is False no value permitted by the step direction moves the score towards y_desired.", "quantifier": "all features, coefficients, desired outcomes, points and grid values", "why_tests_cant": "a semantic statement over all permitted moves", "anchors": ["recourse/action_set.py:_ActionElement.compatible", "recourse/action_set.py:ActionSet.set_alignment"]}
{"id": "C12", "title": "Alignment follows the classifier", "statement": "After set_alignment(w), flip_direction of feature j is y_desired * sign(w[j]) for every j and alignment_known is True; nothing else about the action set changes.", "quantifier": "all action sets and all finite coefficient vectors of matching length", "why_tests_cant": "all coefficient vectors", "anchors": ["recourse/action_set.py:ActionSet.set_alignment", "recourse/action_set.py:ActionSet.alignment_known"]}
{"id": "C13", "title": "Alignment stays consistent with y_desired over histories", "statement": "After set_alignment(w) and any later sequence of y_desired assignments, flip_direction of feature j is y_desired * sign(w[j]). (False: assigning 0 while y_desired is -1 flips every direction although y_desired keeps its value. True for histories in which 0 is not assigned while y_desired is already -1.)", "quantifier": "all histories of set_alignment and y_desired assignments with values in {-1, 0, 1}", "why_tests_cant": "quantifies over histories", "anchors": ["recourse/action_set.py:ActionSet.y_desired", "recourse/action_set.py:ActionSet.set_alignment"]}
{"id": "C14", "title": "Broadcast of attribute assignments", "statement": "A.attr = v gives every feature the scalar v, and A.attr = [v1..vd] gives feature j the value vj. (False for one-element lists when d > 1: every feature receives the list itself, so that A.actionable = [False] makes every feature actionable.)", "quantifier": "all action sets, all settable attributes and values", "why_tests_cant": "all lengths and value shapes", "anchors": ["recourse/action_set.py:ActionSet.__setattr__", "recourse/action_set.py:_ActionSlice.__setattr__", "recourse/action_set.py:_expand_values"]}
{"id": "C15", "title": "Selection of features", "statement": "A[name], A[j], A[[names]], A[[js]], A[i:j] return the features of that name / position in the given order, and A[[mask]] returns the features where the mask is True. (False for masks given as lists of bool: they are read as positions 0/1.)", "quantifier": "all action sets and all index expressions", "why_tests_cant": "all masks and lengths", "anchors": ["recourse/action_set.py:ActionSet.__getitem__"]}
{"id": "C16", "title": "Marking a feature immutable as documented", "statement": "A[name].mutable = False (README) prevents every change of the feature. (False: it creates an unrelated attribute, the feasible values are unchanged; only `actionable` has the documented effect, and on a slice the assignment raises.)", "quantifier": "all features, points and values assigned", "why_tests_cant": "absence of effect for all points", "anchors": ["README.md", "recourse/action_set.py:ActionSet.__setattr__", "recourse/action_set.py:_ActionSlice.__setattr__", "recourse/action_set.py:_ActionElement.actionable"]}
{"id": "C17", "title": "Construction of an action set", "statement": "ActionSet(X, names) succeeds only for non-empty distinct names matching the number of columns; features appear in column order, unaligned and actionable, binary columns get the grid [0, 1] by default; a non-binary column whose bounds coincide makes the construction raise under the default relative step.", "quantifier": "all matrices and name lists", "why_tests_cant": "all matrices", "anchors": ["recourse/action_set.py:ActionSet.__init__", "recourse/action_set.py:_check_variable_names"]}
{"id": "C18", "title": "Constraint identifiers", "statement": "Every add_constraint without an explicit id returns an id not used before and increases len(constraints) by one; remove_constraint(id) undoes it and fails on unknown ids. (False once the caller also chooses ids: an automatic id can silently replace a constraint with the same chosen id.)", "quantifier": "all histories of additions and removals", "why_tests_cant": "quantifies over histories", "anchors": ["recourse/action_set.py:_ActionConstraints.add_subset_limit_constraint", "recourse/action_set.py:_ActionConstraints.remove"]}
{"id": "C19", "title": "Stored constraints are well formed", "statement": "In every reachable state each stored constraint lists distinct existing variables in column order, its indices are their column positions, and 0 <= lb <= ub <= number of variables; rejected requests leave the registry unchanged.", "quantifier": "all histories of additions and removals", "why_tests_cant": "quantifies over histories", "anchors": ["recourse/action_set.py:_ActionConstraints"]}
{"id": "C20", "title": "feasible_grid covers exactly the usable features", "statement": "feasible_grid(x) has an entry for a feature iff it is compatible or occurs in a subset-limit constraint; its entries are the feature-wise feasible actions at x[j] (without dropping directions for constrained features).", "quantifier": "all aligned action sets, all finite x of matching length", "why_tests_cant": "all action sets and points", "anchors": ["recourse/action_set.py:ActionSet.feasible_grid"]}
{"id": "C21", "title": "Equivalent ways of passing a classifier", "statement": "parse_classifier_args returns the same (w, t) for clf=, classifier=, a positional classifier, coefficients=/intercept= and two positional arguments carrying the same numbers; the intercept defaults to 0; keyword clf has precedence over classifier, which has precedence over coefficients.", "quantifier": "all classifiers / coefficient vectors", "why_tests_cant": "all argument shapes", "anchors": ["recourse/helper_functions.py:parse_classifier_args", "recourse/helper_functions.py:is_sklearn_linear_classifier"]}
{"id": "C22", "title": "Actions returned by fit are actionable recourse", "statement": "If fit() reports feasible, then adding actions to x changes at least one and at most max_items features, changes only actionable features, moves each of them to a grid value allowed by its step direction, and gives a score on the desired closed side of 0.", "quantifier": "all action sets (with or without subset limits), classifiers, points x for which the assignment of x succeeds, every sound solver (also one stopped by a limit), both back ends and all cost types", "why_tests_cant": "all inputs and all answers a solver may give", "anchors": ["recourse/builder.py:_RecourseBuilderPythonMIP.build_mip", "recourse/builder.py:_RecourseBuilderCPX.build_mip", "recourse/builder.py:RecourseBuilder._get_mip_build_info", "recourse/builder.py:RecourseBuilder.fit"]}
{"id": "C23", "title": "The returned action flips the prediction", "statement": "If x does not have the desired prediction and fit() is feasible then prediction(x + actions) is the desired one. (False: the score constraint is not strict, the new score can be exactly 0, and np.sign(0) = 0. The new prediction is never the undesired one.)", "quantifier": "all action sets, classifiers, points and sound solvers", "why_tests_cant": "boundary behaviour over all inputs", "anchors": ["recourse/builder.py:_RecourseBuilderPythonMIP.build_mip", "recourse/builder.py:RecourseBuilder.prediction"]}
{"id": "C24", "title": "The integer program represents every choice", "statement": "Every choice of one offered action per usable feature that changes between 1 and max_items features and reaches the desired side of the score extends to a feasible point of the integer program with objective equal to the cost of the choice, and every feasible point arises from exactly one choice.", "quantifier": "all build infos, points and choices", "why_tests_cant": "exactness of an encoding over all instances", "anchors": ["recourse/builder.py:_RecourseBuilderPythonMIP.build_mip", "recourse/builder.py:_RecourseBuilderCPX.build_mip"]}
{"id": "C25", "title": "No recourse is certified correctly", "statement": "With a solver run to completion, feasible = False means that no combination of permitted changes (any grid value allowed by the step directions, including moves against the flip direction) reaches the desired side of the score while respecting the subset limits.", "quantifier": "all regular action sets and points, with or without subset limits (limits in force, see C35), all exact solvers", "why_tests_cant": "a universally quantified negative over an exponential set, for all instances", "anchors": ["recourse/builder.py:RecourseBuilder.fit", "recourse/action_set.py:_ActionElement.feasible_values"]}
{"id": "C26", "title": "Total and local costs are minimal", "statement": "With mip_cost_type total or local and a solver run to completion, the reported cost is the minimum over all combinations of permitted changes that reach the desired side of the score and respect the subset limits.", "quantifier": "all regular action sets and points, with or without subset limits (limits in force, see C35), all exact solvers", "why_tests_cant": "optimality over an exponential set, for all instances", "anchors": ["recourse/builder.py:RecourseBuilder._get_mip_build_info", "recourse/builder.py:_RecourseBuilderPythonMIP.solution_info"]}
{"id": "C27", "title": "Max cost is minimal", "statement": "With mip_cost_type max (the audit default) the reported cost is the smallest achievable maximum percentile shift. (False: the tie-breaking term epsilon * sum can outweigh a difference between costs of different features. The reported cost exceeds the minimum by at most the smallest cost step, and is exact when distinct costs differ by at least that step.)", "quantifier": "all regular action sets and points, with or without subset limits (limits in force, see C35), all exact solvers", "why_tests_cant": "optimality over an exponential set, for all instances", "anchors": ["recourse/builder.py:_RecourseBuilderPythonMIP.build_mip"]}
{"id": "C28", "title": "Reported costs are consistent", "statement": "For a feasible result of an exact solver, costs[j] is the tabulated cost of actions[j], it is 0 exactly on unchanged features and positive on changed ones, and cost is the maximum (max) or sum (total, local) of costs.", "quantifier": "all instances, all exact solvers", "why_tests_cant": "all instances and solver answers", "anchors": ["recourse/builder.py:_RecourseBuilderPythonMIP.solution_info", "recourse/builder.py:_RecourseBuilderCPX.solution_info"]}
{"id": "C29", "title": "Solver limits do not produce wrong certificates", "statement": "feasible = False is reported only if no recourse exists, also when a time or node limit stops the solver. (False for both back ends: an unfinished run is reported as `no solution exists`; with Python-MIP even when a feasible incumbent was found.)", "quantifier": "all outcomes of a solver stopped by a limit", "why_tests_cant": "depends on when the solver is interrupted", "anchors": ["recourse/builder.py:_RecourseBuilderPythonMIP.solution_info", "recourse/builder.py:_RecourseBuilderCPX.solution_info"]}
{"id": "C30", "title": "Both back ends pose the same problem", "statement": "For the same action set, classifier and x the CPLEX and Python-MIP builders accept the same inputs and pose programs with the same feasible points and objective; exact solvers hence agree on feasibility and on the optimal objective.", "quantifier": "all instances", "why_tests_cant": "equality of two programs for all instances", "anchors": ["recourse/builder.py:_RecourseBuilderCPX.build_mip", "recourse/builder.py:_RecourseBuilderPythonMIP.build_mip"]}
{"id": "C31", "title": "Action sets aligned to another classifier", "statement": "A builder returns correct results whichever classifier the action set was aligned to before. (False: the old alignment is kept; features whose old coefficient was 0 are silently ignored, so recourse is missed; a feature whose old and new coefficient signs differ raises.)", "quantifier": "all histories of alignment before building", "why_tests_cant": "quantifies over histories", "anchors": ["recourse/builder.py:RecourseBuilder.__init__", "recourse/builder.py:RecourseBuilder._check_mip_build_info"]}
{"id": "C32", "title": "Item limits", "statement": "set_mip_item_limits(lo, hi) makes later solutions change between lo and hi features. (False: with one argument missing it does nothing; with both limits new it forces exactly lo changes (when every actionable feature is offered); with only hi new it raises.)", "quantifier": "all limits and instances", "why_tests_cant": "all limits", "anchors": ["recourse/builder.py:RecourseBuilder.set_mip_item_limits"]}
{"id": "C33", "title": "Assigning x starts afresh", "statement": "After a successful assignment of x the next fit depends only on x, the action set, the classifier and the item limits, not on earlier points, fits or enumerations.", "quantifier": "all histories of x assignments, fits and populates", "why_tests_cant": "quantifies over histories", "anchors": ["recourse/builder.py:RecourseBuilder.x", "recourse/builder.py:_RecourseBuilderPythonMIP.build_mip"]}
{"id": "C34", "title": "Failed assignment of x", "statement": "If assigning x raises, the builder keeps its previous point. (False: the new x is stored although the program of the previous point stays; a later fit answers for the old point.)", "quantifier": "all failing assignments", "why_tests_cant": "crash point inside an operation", "anchors": ["recourse/builder.py:RecourseBuilder.x"]}
{"id": "C35", "title": "Subset limits are enforced", "statement": "With a subset limit (names, lb, ub) the number of listed features that are nonzero after the action is between lb and ub. (False: constraint indices are column positions but are used to index the list of usable features; when some column is unusable the limit falls on other features or raises. True when every column up to the last listed one is usable and listed points are nonnegative.)", "quantifier": "all action sets with subset limits, classifiers and points", "why_tests_cant": "index arithmetic that coincides only on instances where all columns are usable, such as the test fixture", "anchors": ["recourse/builder.py:_RecourseBuilderPythonMIP.build_mip", "recourse/builder.py:RecourseBuilder._get_mip_build_info", "recourse/action_set.py:ActionSet.feasible_grid"]}
{"id": "C36", "title": "Nothing to change means no recourse", "statement": "When no feature offers a useful action, fit() reports infeasible with infinite cost. (True for cost type max; false for total and local, where assigning x raises KeyError.)", "quantifier": "all instances with an empty action grid", "why_tests_cant": "all such instances and cost types", "anchors": ["recourse/builder.py:_RecourseBuilderPythonMIP.build_mip"]}
{"id": "C37", "title": "distinct_subsets never repeats a feature combination", "statement": "populate(enumeration_type = distinct_subsets) returns items no two of which change the same set of features.", "quantifier": "all instances (with subset limits: Python-MIP only, see C43), all sound solvers, any number of items, any earlier fits and enumerations at the point", "why_tests_cant": "induction over an unbounded number of solver calls", "anchors": ["recourse/builder.py:RecourseBuilder.populate", "recourse/builder.py:_RecourseBuilderPythonMIP.remove_feature_combination"]}
{"id": "C38", "title": "distinct_subsets is exhaustive", "statement": "If the enumeration stops because the solver proves infeasibility, every set of features that can be changed by a permitted recourse all of whose changes (except those of features listed in a subset limit) move towards the desired prediction is the feature set of exactly one returned item, and that item is the cheapest such recourse for its feature set (cost type max: up to the epsilon term, see C27).", "quantifier": "all regular instances, with subset limits when they are in force (C35; on CPLEX listed features must be as in C43), all exact solvers", "why_tests_cant": "completeness over all feature subsets", "anchors": ["recourse/builder.py:RecourseBuilder.populate"]}
{"id": "C39", "title": "Items come in order of cost", "statement": "populate returns items with nondecreasing objective value.", "quantifier": "all instances, both enumeration types, all exact solvers", "why_tests_cant": "induction over the run", "anchors": ["recourse/builder.py:RecourseBuilder.populate"]}
{"id": "C40", "title": "mutually_exclusive items share no feature", "statement": "populate(enumeration_type = mutually_exclusive) returns items with pairwise disjoint sets of changed features, and when it stops by infeasibility no further offered recourse avoids all features used.", "quantifier": "all instances, all sound (exact for the second part) solvers", "why_tests_cant": "induction over the run", "anchors": ["recourse/builder.py:RecourseBuilder.populate", "recourse/builder.py:_RecourseBuilderPythonMIP.remove_all_features"]}
{"id": "C41", "title": "Enumeration terminates", "statement": "populate returns at most total_items items and terminates even with total_items = inf, after at most 2^d (distinct_subsets) or d (mutually_exclusive) items, d the number of actionable features.", "quantifier": "all instances, all sound solvers", "why_tests_cant": "termination", "anchors": ["recourse/builder.py:RecourseBuilder.populate"]}
{"id": "C42", "title": "Enumeration is not repeated by later calls", "statement": "A second populate on the same builder never returns a feature combination already returned (distinct_subsets); as a consequence fit() after populate() need not return the cheapest action.", "quantifier": "all histories of populate calls of the same enumeration type", "why_tests_cant": "quantifies over histories", "anchors": ["recourse/builder.py:RecourseBuilder.populate", "recourse/builder.py:RecourseBuilder.fit"]}
{"id": "C43", "title": "CPLEX enumeration with subset limits", "statement": "distinct_subsets on the CPLEX builder never repeats a feature combination also with subset limits. (False for non-binary features: cuts are made on nullifying instead of unchanged indicators.)", "quantifier": "all instances with subset limits", "why_tests_cant": "needs a non-binary constrained feature, absent from the fixtures", "anchors": ["recourse/builder.py:_RecourseBuilderCPX.remove_feature_combination"]}
{"id": "C44", "title": "Audit has one row per input row", "statement": "audit(X) returns a table with the same number of rows and the same index as X; equal rows of X get equal entries.", "quantifier": "all matrices with at least one undesired row, all solvers (equal entries without further assumption)", "why_tests_cant": "all matrices, row orders and duplicates", "anchors": ["recourse/auditor.py:RecourseAuditor.audit"]}
{"id": "C45", "title": "Audit entries", "statement": "Rows that already have the desired outcome have feasible = NaN, cost = NaN; every other row has the feasible and cost of fitting that row: feasible = False and cost = Inf, or feasible = True and a finite positive cost.", "quantifier": "all matrices, all exact solvers", "why_tests_cant": "all matrices", "anchors": ["recourse/auditor.py:RecourseAuditor.audit"]}
{"id": "C46", "title": "Audit of an approved population", "statement": "audit(X) also works when every row already has the desired outcome. (False: it raises KeyError. It raises for no other reason than this, given that every row can be processed.)", "quantifier": "all matrices without undesired rows", "why_tests_cant": "all such matrices", "anchors": ["recourse/auditor.py:RecourseAuditor.audit"]}
{"id": "C47", "title": "Audit for the undesired outcome", "statement": "audit(X, y_desired = -1) reports recourse towards -1. (False unless the action set was given y_desired = -1: rows are selected for -1 but the program still asks for +1.)", "quantifier": "all action sets, matrices, desired outcomes", "why_tests_cant": "all combinations of the two settings", "anchors": ["recourse/auditor.py:RecourseAuditor.audit", "recourse/action_set.py:ActionSet.y_desired"]}
{"id": "C48", "title": "Audit does not depend on row order", "statement": "Permuting or duplicating the rows of X permutes / duplicates the rows of the audit (feasible always; cost for solvers that answer equal programs equally).", "quantifier": "all matrices and permutations", "why_tests_cant": "all permutations", "anchors": ["recourse/auditor.py:RecourseAuditor.audit"]}
{"id": "C49", "title": "Flipset table mirrors the items", "statement": "The data frame has exactly one row per stored item (in sorted order), whose cost, size, features, x, x_new, score_new describe that item; len() equals the number of rows.", "quantifier": "all histories of populate and sort", "why_tests_cant": "quantifies over histories", "anchors": ["recourse/flipset.py:Flipset._add_to_df", "recourse/flipset.py:Flipset._item_to_df_row", "recourse/flipset.py:Flipset.sort"]}
{"id": "C50", "title": "Flipset order", "statement": "After populate, rows are sorted by size, then cost, then new score, unless another order was requested with an in-place sort, which then persists over later populates. (sort(by, inplace = False) is remembered too: afterwards populate no longer sorts.)", "quantifier": "all histories of populate and sort", "why_tests_cant": "quantifies over histories", "anchors": ["recourse/flipset.py:Flipset.sort", "recourse/flipset.py:Flipset._add_to_df"]}
{"id": "C51", "title": "flipped is truthful", "statement": "The column flipped is True iff the prediction at x + a differs from the prediction at x. (False: it compares the new prediction with the score of x; it is True for every action whenever the score of x is not in {-1, 0, 1}. If it is False the prediction is indeed unchanged.)", "quantifier": "all classifiers, points and actions", "why_tests_cant": "all real scores; fixtures never contain the coincidence", "anchors": ["recourse/flipset.py:Flipset._item_to_df_row", "recourse/flipset.py:Flipset._validate_action", "recourse/flipset.py:Flipset.yhat"]}
{"id": "C52", "title": "Adding items is all or nothing", "statement": "If one item of a batch is rejected, none is added to items or table; accepted items have finite, nonzero actions of the right length, positive cost and feasible = True.", "quantifier": "all batches of items", "why_tests_cant": "all batches and positions of the bad item", "anchors": ["recourse/flipset.py:Flipset._add", "recourse/flipset.py:Flipset._validate_item", "recourse/flipset.py:Flipset._validate_action"]}
{"id": "C53", "title": "Cost type of later populates", "statement": "populate(cost_type = c) generates items minimal for cost type c. (True for the first populate; later calls reuse the first builder and ignore c.)", "quantifier": "all histories of populate calls", "why_tests_cant": "quantifies over histories", "anchors": ["recourse/flipset.py:Flipset.populate"]}
{"id": "C54", "title": "Audit report counts", "statement": "The report prints how many denied people of each outcome group have no recourse. (False: infinite costs are replaced by NaN before rows with finite cost are counted, so the printed number is 0 for every audit table.)", "quantifier": "all audit tables", "why_tests_cant": "all tables", "anchors": ["recourse/helper_functions.py:print_recourse_audit_report", "recourse/print_recourse_audit_report.py:print_recourse_audit_report"]}
{"id": "C55", "title": "Solver limits are clipped, never rejected late", "statement": "mip_time_limit and mip_node_limit accept exactly None and positive numbers, and with CPLEX the value in force is the smaller of the request and the maximum the solver supports.", "quantifier": "all requested limits", "why_tests_cant": "all values", "anchors": ["recourse/builder.py:RecourseBuilder.mip_time_limit", "recourse/builder.py:RecourseBuilder.mip_node_limit", "recourse/cplex_helper.py:set_cpx_time_limit", "recourse/cplex_helper.py:set_cpx_node_limit"]}
{"id": "C58", "title": "Everything in a flipset is recourse", "statement": "Every item a flipset stores is actionable recourse for its point: a nonzero vector of permitted changes that brings the score to the desired side (boundary included).", "quantifier": "all action sets, classifiers, points, feasible solver answers and histories of populate and sort", "why_tests_cant": "quantifies over histories and solvers", "anchors": ["recourse/flipset.py:Flipset.populate", "recourse/flipset.py:Flipset._add"]}
{"id": "C59", "title": "populate succeeds at a denied point", "statement": "At a point the classifier denies, once the action set and classifier are accepted by the recourse builder, populate(total_items, enumeration_type, cost_type) terminates and raises nothing: no item found by the search is rejected by the flipset's own validation.", "quantifier": "all action sets, classifiers, denied points, enumeration and cost types, numbers of items and sound solvers", "why_tests_cant": "quantifies over all inputs and all solver answers", "anchors": ["recourse/flipset.py:Flipset.populate", "recourse/flipset.py:Flipset._add", "recourse/flipset.py:Flipset._validate_item", "recourse/builder.py:RecourseBuilder.populate"]}
{"id": "C60", "title": "The flat table lists every change of every item", "statement": "to_flat_df lists, for every item, exactly one line per feature it changes, in feature order, with the feature's name, its current value and the value required, lines of one item contiguous and items grouped by their label; to_latex formats the same lines. (to_latex raises on a flipset without items.)", "quantifier": "all flipsets reachable by populate and sort", "why_tests_cant": "all items, features and orders", "anchors": ["recourse/flipset.py:Flipset.to_flat_df", "recourse/flipset.py:Flipset.to_latex"]}
{"id": "C61", "title": "Solver settings read back what was set", "statement": "Reading mip_time_limit, mip_node_limit or mip_display of a recourse builder returns the value last assigned to that attribute. (False for mip_display, whose getter always raises and whose setter overwrites the node limit.)", "quantifier": "all histories of assignments to the settings", "why_tests_cant": "quantifies over histories", "anchors": ["recourse/builder.py:RecourseBuilder.mip_time_limit", "recourse/builder.py:RecourseBuilder.mip_node_limit", "recourse/builder.py:RecourseBuilder.mip_display"]}
{"id": "C57", "title": "A failing broadcast assignment changes nothing", "statement": "If A.attr = v or A[names].attr = v raises, no feature of the action set has changed. (False: features before the failing one keep the new value.)", "quantifier": "all action sets, attributes and values", "why_tests_cant": "quantifies over all failure positions and values", "anchors": ["recourse/action_set.py:ActionSet.__setattr__", "recourse/action_set.py:_ActionSlice.__setattr__"]}
{"id": "C62", "title": "Assignments to a feature's attributes mean what they say", "statement": "Assigning step_direction, flip_direction, actionable, step_size, step_type, variable_type, lb, ub or bounds of a feature is accepted exactly for the documented valid values; when accepted, reading the attribute gives the (normalised) value, and every other attribute, and the grid, is unchanged; otherwise it raises and nothing changes. Read-only attributes (values, size, ...) cannot be assigned.", "quantifier": "all features in all reachable states, all values assigned", "why_tests_cant": "all states and all values", "anchors": ["recourse/action_set.py:ActionElement (property setters)"]}
{"id": "C56", "title": "Percentiles refer to the current grid", "statement": "percentile(v) of a feature is the interpolated distribution function of the feature's data over its present grid: at the k-th grid value the share of density mass of the first k grid values (with 1e-6 added at both ends), linear in between, 1e-6 below and 1-1e-6 above the grid. Neither attribute assignments nor percentile evaluations change it. (False after update_grid once percentiles have been evaluated, unless update_interpolator is called.)", "quantifier": "all features, all histories of assignments, update_grid, percentile evaluations and update_interpolator, all values", "why_tests_cant": "quantifies over histories and all values", "anchors": ["recourse/action_set.py:ActionElement.interpolator", "recourse/action_set.py:ActionElement.update_interpolator", "recourse/action_set.py:ActionElement.percentile", "recourse/action_set.py:ActionElement.update_grid"]}
{"id": "C63", "title": "Attributes of all features read and write back", "statement": "A.attr is the list, in column order, of what A[name].attr returns for each feature, and A[idx].attr lists the attribute of the selected features in the order of the selection; A.attr = A.attr changes nothing. (The last part is false for lb and ub of percentile bounds, where the value read is taken as a percentile rank when written.)", "quantifier": "all action sets in all reachable states, all attributes", "why_tests_cant": "all states, attributes and selections", "anchors": ["recourse/action_set.py:ActionSet.__getattribute__", "recourse/action_set.py:ActionSet.__setattr__", "recourse/action_set.py:_ActionSlice.__getattr__"]}
{"id": "C64", "title": "Tables of an action set describe it", "statement": "df has one row per feature in column order with its current attributes; str(A) and str(A[...]) show the same; to_latex reports name, type, bounds, grid size, step size and how the feature may change (no / yes / only increases / only decreases) truthfully. (False: features that may only decrease are reported as 'only increases', integer and binary features as real, and printing a slice always raises.)", "quantifier": "all action sets in all reachable states", "why_tests_cant": "all states", "anchors": ["recourse/action_set.py:ActionSet.df", "recourse/action_set.py:tabulate_actions", "recourse/action_set.py:texify_action_set"]}
{"id": "C65", "title": "Answers depend only on the decision boundary", "statement": "Multiplying the coefficients and the intercept by the same positive number (which leaves every prediction as it is) changes neither which points are accepted, nor whether there is recourse, nor the reported cost. (False in one respect: coefficients up to 1e-8 count as zero, so scaling down can make the same assignment of x fail.)", "quantifier": "all action sets, classifiers, positive factors, points, cost types, back ends", "why_tests_cant": "relates two runs over all inputs and factors", "anchors": ["recourse/builder.py:RecourseBuilder.x", "recourse/builder.py:RecourseBuilder.fit", "recourse/action_set.py:ActionSet.set_alignment"]}
{"id": "C66", "title": "A more favourable threshold never hurts", "statement": "With the same action set, point, coefficients and cost type, moving the intercept in favour of the desired outcome never turns a person with recourse into one without, and never raises the optimal objective (nor, for total and local costs, the reported cost). Which points are accepted does not depend on the intercept.", "quantifier": "all action sets, classifiers, pairs of intercepts, points, cost types, back ends, exact solvers", "why_tests_cant": "relates two optimisation runs over all inputs", "anchors": ["recourse/builder.py:RecourseBuilder.fit", "recourse/builder.py:RecourseBuilder.build_mip"]}
{"id": "C67", "title": "Cost type does not decide whether there is recourse", "statement": "For the same action set, classifier and point, the feasible flag returned by fit is the same for total, local and max costs and for every back end.", "quantifier": "all action sets, classifiers, points, pairs of cost types and back ends, exact solvers", "why_tests_cant": "relates runs of different formulations over all inputs", "anchors": ["recourse/builder.py:RecourseBuilder._get_mip_build_info", "recourse/builder.py:RecourseBuilder.fit"]}
{"id": "C68", "title": "No superfluous changes", "statement": "For a person without the desired outcome, leaving out any of the changes recommended by fit (and keeping the others as they are) no longer leads to the desired side of the boundary, within the subset limits. Items of mutually_exclusive enumerations have the same property; if changes of an item of distinct_subsets can be left out, an earlier item changes exactly the remaining features. (For max costs: where percentile scores increase strictly along the grids.)", "quantifier": "all action sets, classifiers, denied points, all sub-actions, exact solvers", "why_tests_cant": "all sub-actions of optimal solutions over all inputs", "anchors": ["recourse/builder.py:RecourseBuilder.fit", "recourse/builder.py:RecourseBuilder.populate"]}
{"id": "C69", "title": "Every recommended change helps", "statement": "Every change in an action returned by fit or populate moves the score towards the desired side of the boundary, except possibly changes of features listed in a subset limit.", "quantifier": "all reachable builders, points, sound solvers, histories", "why_tests_cant": "all inputs, histories and solver behaviours", "anchors": ["recourse/builder.py:RecourseBuilder.fit", "recourse/builder.py:RecourseBuilder.populate", "recourse/action_set.py:ActionSet.feasible_grid"]}
{"id": "C70", "title": "Whoever follows the advice is approved by the audit", "statement": "If x + a is audited, where a is an action returned by fit for x with the same classifier and desired outcome, its entry is NaN/NaN (nothing to do). (False for desired outcome -1 when the new score is exactly 0: the person is then audited again, possibly with the answer 'no recourse'.)", "quantifier": "all builders, points, returned actions, auditors, data sets containing x + a", "why_tests_cant": "combines two components over all inputs and solver answers", "anchors": ["recourse/auditor.py:RecourseAuditor.audit", "recourse/builder.py:RecourseBuilder.fit"]}
{"id": "C71", "title": "Lifting restrictions never hurts", "statement": "Making features actionable, dropping step directions, widening or removing subset limits and raising max_items never takes recourse away, and never makes the optimal total or local cost larger (max: not larger by a cost step or more).", "quantifier": "all pairs of action sets that differ by lifting restrictions, all regular denied points, exact solvers, back ends", "why_tests_cant": "relates two optimisation runs over all inputs", "anchors": ["recourse/builder.py:RecourseBuilder.fit", "recourse/action_set.py:ActionSet.__init__"]}
{"id": "C72", "title": "The attributes min_items and max_items", "statement": "Assigning builder.min_items or builder.max_items stores the value (max_items capped at the number of actionable features; None resets to 0 / that number), refuses negative values without any effect, does not change the answer for the current point, and from the next assignment of x on every returned action changes between min_items and max_items features; if max_items < min_items fit answers that there is none.", "quantifier": "all builders, values, orders of the two assignments, points, sound solvers", "why_tests_cant": "all histories, values and solver answers", "anchors": ["recourse/builder.py:RecourseBuilder.min_items", "recourse/builder.py:RecourseBuilder.max_items"]}
{"id": "C73", "title": "Minimum number of changes", "statement": "With min_items = k at the assignment of a denied point, fit answers that there is recourse iff some useful action (no change worsens the score, except for features in subset limits) changing at least max(k, 1) and at most max_items features reaches the desired side; and the total or local cost reported is the smallest among these actions.", "quantifier": "all reachable builders, min_items values, denied regular points, exact solvers", "why_tests_cant": "optimality over all actions for all inputs", "anchors": ["recourse/builder.py:RecourseBuilder.min_items", "recourse/builder.py:RecourseBuilder.fit"]}
{"id": "C74", "title": "Constructors do what their arguments say", "statement": "RecourseBuilder(action_set, x, solver, mip_cost_type, classifier arguments) uses the solver asked for (by default CPLEX if installed, else Python-MIP; one that is not installed is refused with ValueError), the classifier and cost type given, limits 0 and the number of actionable features; a classifier with the wrong number of coefficients is refused; it aligns the action set if it was not aligned and leaves it unchanged otherwise; passing x is the same as assigning it afterwards. A constructor that raises leaves the action set unchanged.", "quantifier": "all reachable action sets, argument combinations, installed solvers", "why_tests_cant": "all argument combinations and action sets", "anchors": ["recourse/builder.py:RecourseBuilder.__new__", "recourse/builder.py:RecourseBuilder.__init__", "recourse/defaults.py", "recourse/auditor.py:RecourseAuditor.__init__"]}
{"id": "C75", "title": "Unknown cost types never lead to an answer", "statement": "A mip_cost_type that is none of 'total', 'local', 'max' is refused; in any case it never leads to a recommended action.", "quantifier": "all builders, denied regular points, exact solvers, all strings", "why_tests_cant": "all inputs and solver answers", "anchors": ["recourse/builder.py:RecourseBuilder.__init__", "recourse/builder.py:_CPXBuilder.solution_info", "recourse/builder.py:_PythonMIPBuilder.solution_info"]}
{"id": "C76", "title": "The two outcomes are treated alike", "statement": "An action set for the desired outcome y with the classifier (w, t) and the action set for -y with the classifier (-w, -t) give the same answers: the same points are accepted by builder.x = ... and the others rejected with the same error, fit finds recourse for the same points, and the objective (for total and local costs, the reported cost) is the same.", "quantifier": "all reachable action sets, classifiers, points, back ends, cost types, exact solvers and refits", "why_tests_cant": "all action sets, classifiers and points, two runs compared", "anchors": ["recourse/action_set.py:ActionSet.set_alignment", "recourse/builder.py:RecourseBuilder.build_mip_info", "recourse/builder.py:RecourseBuilder.fit"]}
{"id": "C77", "title": "The order of the columns does not matter", "statement": "If two action sets, classifiers and points have the same columns (feature, coefficient, value) in another order - for instance sets made from the same data with permuted columns - then the one point is accepted iff the other is, there is recourse for the one iff for the other, and the objective (for total and local costs, the reported cost) is the same.", "quantifier": "all reachable action sets, permutations, classifiers, points, back ends, cost types, exact solvers and refits", "why_tests_cant": "all sets, points and permutations, two runs compared", "anchors": ["recourse/action_set.py:ActionSet.feasible_grid", "recourse/builder.py:RecourseBuilder._get_mip_build_info", "recourse/builder.py:_CPXBuilder.build_mip", "recourse/builder.py:_PythonMIPBuilder.build_mip"]}
{"id": "C78", "title": "Features that cannot be used can be left out", "statement": "Dropping features that are not actionable, or whose coefficient is 0, and moving their part of the score into the intercept changes neither acceptance of the point, nor whether there is recourse, nor the objective (for total and local costs, the reported cost).", "quantifier": "all reachable action sets, classifiers, points, back ends, cost types, exact solvers and refits", "why_tests_cant": "all sets and points, two runs compared", "anchors": ["recourse/action_set.py:ActionSet.feasible_grid", "recourse/action_set.py:_ActionElement.compatible", "recourse/builder.py:RecourseBuilder._get_mip_build_info"]}
{"id": "C79", "title": "The audit report describes the audited people", "statement": "For an audit of X and true labels y with the index of X, the printed size is the number of people audited, and for each label the printed mean, median and count are those of the costs of the people with that label who have recourse. (False when index labels repeat: the joins multiply rows, a label occurring k times is counted k*k*k times; and only the first label is reported.)", "quantifier": "all data, index labels, audit tables, labels", "why_tests_cant": "all tables and labels", "anchors": ["recourse/print_recourse_audit_report.py:print_recourse_audit_report", "recourse/helper_functions.py:print_recourse_audit_report"]}
{"id": "C80", "title": "A builder follows later changes of its action set", "statement": "After changes of the (aligned) action set, the next assignment of x to a builder is accepted or rejected, and answered (recourse or not, cost), as by a new builder for the set as it is now. (False when features have become actionable since construction: max_items stays at the old number and cannot be raised, so recourse is missed.)", "quantifier": "all action sets, builders with any history, later changes, points, exact solvers, back ends and cost types", "why_tests_cant": "all histories of changes of the shared set", "anchors": ["recourse/builder.py:RecourseBuilder.x", "recourse/builder.py:RecourseBuilder.max_items", "recourse/builder.py:RecourseBuilder.__init__"]}
{"id": "C81", "title": "Using an action set leaves it as it is", "statement": "Builders, audits and flipsets leave an action set as it looks: every attribute of every feature, the values offered, the percentiles, the subset limits and the desired outcome are unchanged, except that a builder or flipset aligns a set that was not aligned, and an auditor always re-aligns it; and later changes of the set have the same effect as without the use. (False for update_grid: a set whose percentiles were used keeps the outdated percentiles.)", "quantifier": "all action sets, classifiers, uses (points, fits, enumerations, audits, solvers), later assignments", "why_tests_cant": "all histories of use", "anchors": ["recourse/builder.py:RecourseBuilder", "recourse/auditor.py:RecourseAuditor", "recourse/flipset.py:Flipset", "recourse/action_set.py:_ActionElement.interpolator"]}
{"id": "C82", "title": "The order of the people in the data does not matter", "statement": "An action set made from the same rows in another order is the same (same features, types, bounds, grids, data), or the constructor raises the same error.", "quantifier": "all data sets, names, custom bounds, default bounds, step types, and permutations of the rows", "why_tests_cant": "all permutations of all data sets", "anchors": ["recourse/action_set.py:ActionSet.__init__", "recourse/action_set.py:_ActionElement.__init__", "recourse/action_set.py:_determine_variable_type"]}
{"id": "C83", "title": "Units of measurement do not matter", "statement": "If the data, the person, the absolute bounds and the classifier are given in other units (each column scaled by a positive factor and shifted), the action set is the old one in the new units, an action is recourse iff the converted action is, fit finds recourse in the one iff in the other, and the cost is the same. (False for integer columns that are scaled, whose bounds are rounded (shifts by integers are fine); for binary columns coded with other numbers than 0 and 1; for very small numbers, because of the tolerance 1e-8; and costs change with the scale.)", "quantifier": "all data sets, factors, shifts, classifiers, points, exact solvers, back ends", "why_tests_cant": "all conversions of all data", "anchors": ["recourse/action_set.py:_BoundElement.__init__", "recourse/action_set.py:_ActionElement.update_grid", "recourse/action_set.py:_ActionElement.update_interpolator", "recourse/builder.py:RecourseBuilder.fit"]}
{"id": "C84", "title": "An audit and a flipset agree", "statement": "For a denied person, an audit reports the person as feasible iff Flipset.populate for the same action set and classifier finds at least one item, whatever the enumeration type, cost type and number of items asked for, and whether the action set is used before or after the audit; with cost type max the audited cost is the cost of the first item, up to less than any cost step.", "quantifier": "all action sets, classifiers, audited data, denied rows in regular situations, exact solvers (possibly different), back ends, enumeration and cost types", "why_tests_cant": "all action sets, data and solvers", "anchors": ["recourse/auditor.py:RecourseAuditor.audit", "recourse/flipset.py:Flipset.populate", "recourse/builder.py:RecourseBuilder.fit"]}
{"id": "C85", "title": "Replacing a feature of an action set", "statement": "A[name] = e succeeds iff e is an element and name is a feature, otherwise it raises and changes nothing; afterwards A[name] is e and everything else is as before; the last assignment counts, assignments to different features commute. A new builder for a set into which a new (unaligned) element was put aligns the whole set with its classifier; existing builders reject all points until then. (False: that every feature is filed under its own name, and that a builder notices an element aligned with another classifier.)", "quantifier": "all reachable action sets, elements, names, classifiers, builders, points", "why_tests_cant": "all histories of the set and the element", "anchors": ["recourse/action_set.py:ActionSet.__setitem__", "recourse/builder.py:RecourseBuilder.__init__", "recourse/action_set.py:ActionSet.feasible_grid"]}
{"id": "C86", "title": "Constructor arguments, flags and internal checks", "statement": "ActionSet(X, names, y_desired, **kwargs) succeeds exactly for an array with a list of names or a data frame (whose columns replace names), legal flags and arguments the set itself accepts, and yields the same set whatever the flags. The internal checks at the end of the constructors of features, sets and builders never fail, so check_flag changes nothing. print_flag takes truth values and None, check_flag of a set truth values; other values raise and change nothing; accepted ones change that flag only; repr(A) shows the table iff print_flag is on and raises TypeError otherwise. Custom bounds count only for features of the set, per feature; default bounds do not matter for features with custom bounds or with values 0/1. (False: that the invariant of the set's check is kept by assignments, and that a refused builder leaves the set alone.)", "quantifier": "all data arguments, names, outcomes, keyword arguments, histories, builders", "why_tests_cant": "all combinations of arguments and histories", "anchors": ["recourse/action_set.py:ActionSet.__init__", "recourse/action_set.py:ActionSet._check_rep", "recourse/action_set.py:_ActionElement._check_rep", "recourse/builder.py:RecourseBuilder._check_rep", "recourse/action_set.py:ActionSet.__repr__"]}
{"id": "C87", "title": "The builder's own check of its answers", "statement": "After any use of a builder at a point, feed the answer of fit() to the builder's own check (_check_mip_solution). Infeasible answers pass silently. The item counts and reported costs never cause an exception or a warning. The check raises exactly when the answer leaves the prediction of the person unchanged at a score within 1e-4 of zero; otherwise it warns exactly about changed features outside the builder's list of actionable features and about unchanged predictions. So with a new builder and a rejected person it always passes without a warning. (False: that it accepts every correct answer: it raises, or warns, for persons who were approved already, and warns when the action set was edited after the builder was made.)", "quantifier": "all reachable builders, points, uses, exact solvers, both back ends, all cost types", "why_tests_cant": "all data, action sets, classifiers, points and solvers", "anchors": ["recourse/builder.py:RecourseBuilder._check_mip_solution", "recourse/builder.py:RecourseBuilder.fit"]}
{"id": "C88", "title": "Exactly which points a builder accepts", "statement": "For a builder with any history, and a regular situation (the offered values are clear of numpy's tolerances), the assignment b.x = x succeeds exactly if x has one value per feature, percentiles can be computed for the features that may move, the person's value and the tails meet the conditions of the cost type, and subset limits refer to usable features. For a new builder over a new action set and a point within the grids this says: x has the right length, a density can be estimated for every feature the classifier uses, and (unless the cost type is 'max') some grid value of some feature improves the score. The intercept, the predicted outcome of the point, the item limits and the back end play no role.", "quantifier": "all data, histories of sets and builders, classifiers, points, logarithms that increase, positive densities, cost types, back ends", "why_tests_cant": "an exact characterisation over all inputs", "anchors": ["recourse/builder.py:RecourseBuilder.x", "recourse/builder.py:RecourseBuilder._get_mip_build_info", "recourse/action_set.py:ActionSet.feasible_grid"]}
{"id": "C89", "title": "Who has recourse over a new action set", "statement": "Over a new action set, for a rejected person within the grids and an exact solver, fit() reports recourse exactly if the classifier approves the most favourable point (every feature at the end of its grid that the classifier prefers). Hence with one classifier either every rejected person has recourse or none has, whatever the back end and the cost type. For data of zeros and ones recourse exists exactly if y*t + sum of max(0, y*w_j) is not negative. An audit of people within the grids succeeds and gives every rejected person that same answer.", "quantifier": "all data, classifiers, persons within the grids, audits, exact solvers, cost types, both back ends", "why_tests_cant": "all data sets, persons and solvers", "anchors": ["recourse/builder.py:RecourseBuilder.fit", "recourse/auditor.py:RecourseAuditor.audit", "recourse/action_set.py:ActionSet.__init__"]}
{"id": "C90", "title": "The whole pipeline over the real numbers", "statement": "What the other properties assume of numpy's logarithm and scipy's gaussian_kde is true of the functions they compute, over the real numbers: the logarithm increases, density estimates exist exactly for data with two different values and are positive everywhere. So, without any assumption on these functions, for all data of zeros and ones in which every feature takes both values, the action set and the builder are made, a rejected person of zeros and ones is accepted exactly if some change helps (always for cost type 'max'), and fit() then answers, feasible exactly if y*t + sum of max(0, y*w_j) is not negative; and audits over new sets succeed. (False: that every action set that can be made can be used: if nobody differs in a feature that the classifier uses, no point is ever accepted.)", "quantifier": "all data, classifiers, persons, cost types, back ends, exact solvers, orders of Python sets", "why_tests_cant": "all data sets, persons and solvers", "anchors": ["recourse/action_set.py:_ActionElement.update_interpolator", "recourse/action_set.py:ActionSet.__init__", "recourse/builder.py:RecourseBuilder.fit", "recourse/auditor.py:RecourseAuditor.audit"]}
{"id": "C91", "title": "The programs handed to the solver are well formed", "statement": "At all times, also after an enumeration has added cuts and after item limits were changed, the program of a builder is well formed for the solver: the names of its variables differ as strings, every expression (objective, constraints, special ordered sets) mentions only declared variables and each once, no variable has an empty range, and exactly one constraint has each of the names by which the item limits are changed later. In a new program also the names of the constraints differ as strings, and the weights in each special ordered set differ.", "quantifier": "all histories of sets and builders, points, enumerations, both back ends, all cost types", "why_tests_cant": "all histories; a name clash needs particular numbers of features and values", "anchors": ["recourse/builder.py:RecourseBuilder.build_mip", "recourse/builder.py:_CPLEXBuilder.build_mip", "recourse/builder.py:_PythonMIPBuilder.build_mip", "recourse/builder.py:remove_all_features", "recourse/builder.py:remove_feature_combination", "recourse/builder.py:set_item_limits"]}
{"id": "C92", "title": "One-hot encodings", "statement": "A subset limit of 1 to 1 (or 0 to 1) on the indicators of a category keeps them a valid encoding: if the indicators take the values 0 and 1 and the limits apply (C35), then after every feasible answer each indicator is 0 or 1 and their number of ones lies between the bounds. If the indicators are the first columns and the classifier uses all of them, the limits always apply, and a new builder accepts every point within the grids (of the right length, densities estimable). If all features are the indicators of one category, a rejected person of category j is accepted, fit() is feasible exactly if some category has an approved score (or, with lower bound 0, having no category has), and the action moves the person to such a category. In particular the project's test test_rb_onehot_encoding passes for all data, numbers of categories, cost types and back ends.", "quantifier": "all data of zeros and ones, numbers of categories, classifiers, persons, cost types, back ends, exact (first part: sound) solvers", "why_tests_cant": "all numbers of categories, data and classifiers", "anchors": ["recourse/action_set.py:ActionSet.add_constraint", "recourse/builder.py:RecourseBuilder._get_mip_build_info", "recourse/builder.py:RecourseBuilder.build_mip", "tests/test_builder.py:test_rb_onehot_encoding"]}
{"id": "C93", "title": "Enumerations do not depend on the solver", "statement": "Two enumerations of type 'distinct_subsets' for the same action set, classifier, cost type and point, by any two exact solvers and on any two back ends whose combination cuts are sharp (Python-MIP, no subset limits, or listed features that are only kept or set to zero), agree position by position on the objective value and, unless the cost type is 'max', on the cost, and return the same number of items when the same number is asked for. The same holds for the items of two flipsets, also when the second one is created after another flipset for the same action set and classifier was used.", "quantifier": "all action sets, classifiers, points, cost types, pairs of back ends and of exact solvers (free to choose among ties, differently at every call), numbers of items, numbers of earlier fits", "why_tests_cant": "the solver's tie-breaking is not under the control of a test", "anchors": ["recourse/builder.py:RecourseBuilder.populate", "recourse/flipset.py:Flipset.populate", "recourse/builder.py:_CPLEXBuilder.remove_feature_combination", "recourse/builder.py:_PythonMIPBuilder.remove_feature_combination"]}
{"id": "C94", "title": "Ties in mutually exclusive enumerations", "statement": "Two enumerations of type 'mutually_exclusive' by exact solvers return equally many items with equal objective values, whatever the solvers choose among equally good solutions. (False: only the existence and the objective value of the first item are independent of the solver.)", "quantifier": "all action sets, classifiers, points, cost types, back ends and exact solvers", "why_tests_cant": "the solver's tie-breaking is not under the control of a test", "anchors": ["recourse/builder.py:RecourseBuilder.populate", "recourse/builder.py:_CPLEXBuilder.remove_all_features", "recourse/builder.py:_PythonMIPBuilder.remove_all_features"]}
{"id": "C95", "title": "Audits do not depend on the solver", "statement": "Two auditors for the same action set and classifier, on any back ends, in any states of use, the second one created before or after audits by the first: audits of the same data succeed or fail together; with exact solvers every person has the same entry in both tables: both NaN, both infeasible at infinite cost, or both feasible with the same cost. (False for the cost; in regular situations the costs differ by less than every cost step, and are equal when distinct costs of changes are at least a cost step apart.)", "quantifier": "all action sets, classifiers, data sets, desired outcomes, pairs of back ends and exact solvers, histories of audits", "why_tests_cant": "the project's test compares two solvers on fifty rows of one data set; a solver's tie-breaking is not under the control of a test", "anchors": ["recourse/auditor.py:RecourseAuditor.audit", "recourse/builder.py:RecourseBuilder.fit", "tests/test_solvers.py:test_compare_auditors"]}
{"id": "C96", "title": "The project's own tests hold for all data", "statement": "The assertions of the project's test functions hold for every data set, classifier, point and solver, not only for the fixtures: construction from a data frame or from values and names; y_desired by constructor and setter; unknown, known and flipped alignment; counts of constraints after additions and removals; stored bounds; fit without a point fails an assertion; the cost of fit is positive or infinite; step directions against all coefficients give an infeasible answer at infinite cost (cost type max, no subset limits); two items of a distinct_subsets flipset share fewer features than the larger changes (without subset limits on CPLEX); items of a mutually_exclusive flipset are orthogonal; an audit has as many rows as people. (The one-hot test is C92, the two solver comparisons are C93 and C95.)", "quantifier": "all data sets, names, keyword arguments, classifiers, points, exact (or sound) solvers, back ends, histories of the action set", "why_tests_cant": "they are the tests; each runs on one or two fixed data sets with one classifier", "anchors": ["tests/test_action_set.py", "tests/test_bounds.py", "tests/test_builder.py", "tests/test_flipset.py", "tests/test_auditor.py", "tests/conftest.py"]}
{"id": "C97", "title": "CPLEX parameters take effect", "statement": "Passing a dictionary of CPLEX parameters to a builder (or setting it later) gives every named solver parameter the value in the dictionary; limits are in force as given; the display is silenced when display_cplex_progress is off; setting the same dictionary twice is the same as setting it once; acceptance depends on the dictionary and the solver only; also when a dictionary is refused, no parameter gets a value the solver does not accept. (False in part: limits at or above the defaults do not lift an earlier limit, limits in the dictionary are overwritten by every fit or populate, and four documented entries are ignored.)", "quantifier": "all dictionaries, all earlier settings of the solver object, all solver libraries (which values they accept, their defaults and largest limits)", "why_tests_cant": "the outcome depends on the whole history of earlier settings and on the dictionary; the effect of a parameter cannot be seen in a result", "anchors": ["recourse/cplex_helper.py:set_cpx_parameters", "recourse/cplex_helper.py:set_cpx_display_options", "recourse/cplex_helper.py:set_cpx_time_limit", "recourse/cplex_helper.py:set_cpx_node_limit", "recourse/builder.py:_RecourseBuilderCPX.set_mip_parameters"]}
{"id": "C98", "title": "Helpers for CPLEX objects", "statement": "Turning preprocessing off and on again restores what was in force; cut-off values are set exactly for nonnegative numbers and touch three parameters only; a copy of a solver object has the same program and parameters; the parameters in force can be read back; the display can be switched on and off; the statistics of a solve have fixed entries, and each group of values is complete or untouched. (False for restoring, reading back, and switching the display on again.)", "quantifier": "all states of the solver object, all values, all solver libraries", "why_tests_cant": "the state of a solver object is any combination of parameter values", "anchors": ["recourse/cplex_helper.py:toggle_cpx_preprocessing", "recourse/cplex_helper.py:set_mip_cutoff_values", "recourse/cplex_helper.py:copy_cplex", "recourse/cplex_helper.py:get_cpx_parameters", "recourse/cplex_helper.py:set_cpx_display_options", "recourse/cplex_helper.py:get_stats_cpx"]}
{"id": "C99", "title": "Adding variables to a program", "statement": "Adding variables with names, objective coefficients, bounds and types, each given as one value for all, a list with one value, or a list with one value per variable, appends exactly these variables in order, each with its own coefficient, bounds and type, and changes no other variable and no parameter. (False for lists with one value and arrays of integers; variables that are all binary get the bounds 0 and 1 whatever is given.)", "quantifier": "all numbers of variables, names, values, mixtures of scalar and list arguments, and earlier contents of the program", "why_tests_cant": "there are unboundedly many shapes of arguments; the tests go through one or two of them", "anchors": ["recourse/cplex_helper.py:add_variable_cpx", "recourse/builder.py:_RecourseBuilderCPX.build_mip"]}
{"id": "C100", "title": "Customisation scripts, and the documented usage", "statement": "A script of lines A[name].attr = value, A[[names]].attr = value and A[name].update_grid() gives every feature exactly what the lines that name it say, in their order, and leaves everything else alone; it runs through whenever each feature accepts its own lines. In particular the customisation of the README runs through on every set with these features: the five features declared immutable never change in any recourse, EducationLevel is only ever increased, and it and TotalMonthsOverdue stay within the given bounds. (False of the README as written: it raises at its second line, A.align does not exist, and the bounds are not in force until update_grid() is called.)", "quantifier": "all action sets with the named features, all their histories, all scripts of such lines; all solvers, classifiers, people and histories of a flipset", "why_tests_cant": "scripts and histories are unbounded and the effect of a line has to be traced to every later answer of any solver", "anchors": ["README.md", "recourse/action_set.py:ActionSet.__getitem__", "recourse/action_set.py:_ActionSlice.__setattr__", "recourse/action_set.py:_ActionElement.update_grid", "recourse/flipset.py:Flipset.populate"]}
{"id": "C101", "title": "Rendered flipsets show the stored items", "statement": "to_html() never raises; without items it says so, otherwise it shows every stored item once, with one line per changed feature (name, current and required value, integers without decimals), lines numbered from 1 within the item, and one background per item that alternates from item to item. to_latex() shows the name of every feature wrapped by the name formatter exactly once. Rendering changes no item. (False for LaTeX: when the name of a variable occurs in the name of another, or in the formatter, the names come out mangled.)", "quantifier": "all histories of a flipset, all numbers of items and changes, all values, all names of variables, all name formatters", "why_tests_cant": "tables have any number of items, and names are arbitrary strings", "anchors": ["recourse/flipset.py:Flipset.to_html", "recourse/flipset.py:Flipset.to_latex", "recourse/flipset.py:Flipset.to_flat_df"]}
{"id": "C102", "title": "Answers survive solver tolerances", "statement": "MIP solvers satisfy constraints and integrality only up to tolerances. With a solver that satisfies constraints and bounds up to eps and integrality up to delta (with N*delta + eps < 1 for the number N of columns and grid values), a feasible answer of fit(), and every item of populate(), misses the target score by at most eps and is within eps + N*delta*R in every feature of an action that is permitted, has an admitted number of changes and respects the subset limits; its cost is as close to the cost of that action. If delta <= 1e-8, enumerations neither repeat a combination (resp. a feature) nor run forever. (False for delta > 1e-8, e.g. the default 1e-6 of Python-MIP: populate repeats an item forever. False for the vector of costs and for the number of changes of the answer itself, at every positive tolerance.)", "quantifier": "all tolerances, all solvers that respect them, all action sets, classifiers and points, all histories of fits, enumerations and edits", "why_tests_cant": "which of the nearly feasible points a solver returns is not under the control of a test", "anchors": ["recourse/builder.py:_CPXBuilder.solution_info", "recourse/builder.py:_MIPBuilder.solution_info", "recourse/builder.py:RecourseBuilder.fit", "recourse/builder.py:RecourseBuilder.populate", "recourse/builder.py:remove_all_features", "recourse/builder.py:remove_feature_combination"]}
{"id": "C103", "title": "Grids in floating point arithmetic", "statement": "update_grid() is computed with rounded arithmetic. For every rounding with small relative error (in particular IEEE doubles) the grid of a real-valued feature starts at the lower bound, increases strictly, has the requested spacing and reaches the upper bound, up to errors delta of a step determined by the unit roundoff and the ratio of the bounds to the step; the element passes its self-check, and no offered value lies below the lower bound or more than 1 + 2 delta steps above the upper bound. Grids of integer features below 2^52 are the exact ones for the computed step. Without rounding, the grid is the exact one. (False: no value exceeds the upper bound by more than rounding errors; bounds 0 and 21 with the default step give a grid that ends at 21.21.)", "quantifier": "all roundings, bounds, steps and step types", "why_tests_cant": "whether the rounded quotient of np.arange reaches the next integer depends on the last bit of the bounds", "anchors": ["recourse/action_set.py:_ActionElement.update_grid"]}
{"id": "C104", "title": "Scores and predictions in floating point arithmetic", "statement": "Whatever the order and grouping in which a dot product is added up, and with or without fused multiplication, the computed score of a builder differs from the exact one by at most the classical error bound; the computed prediction, the auditor's selection and the flipset's prediction are the exact ones whenever the exact score exceeds this bound in absolute value, and always when weights and features are integers of moderate size; for one and the same computed dot product the three agree. (False: the auditor and a builder, which compute the dot product of the same point independently, agree on every point: with weights 0.1, 0.2, 0.3 and intercept -0.6 the point (1,1,1) is audited but the builder for it does not predict -1.)", "quantifier": "all roundings, weights, points, orders of summation", "why_tests_cant": "the order of summation depends on the BLAS in use and on the shape of the data; near-ties of the score are not reached by random tests", "anchors": ["recourse/builder.py:RecourseBuilder.score", "recourse/builder.py:RecourseBuilder.prediction", "recourse/auditor.py:RecourseAuditor.audit", "recourse/flipset.py:Flipset.predict"]}
{"id": "C105", "title": "Answers when everything is computed in floating point", "statement": "Take grids that were computed with rounding (or any increasing grids), a score computed in any order, actions and costs rounded, and a solver that meets constraints up to eps and integrality up to delta. Every feasible answer of fit() and every item of populate() misses the desired score by at most eps plus the rounding error of the score, and is within eps + N*delta*(1+u)*R + u*R in each feature of an action that leads to grid values in permitted directions, keeps immutable features, and changes between max(min_items,1) and max_items features. Where subset limits apply, and no listed feature gets so close to 0 that rounding hides it, the close action respects them. Conversely, at a denied point with aligned directions, if some permitted action within the limits reaches the desired side with a margin of the score's rounding error plus u*R times the sum of the coefficients' sizes, and grid values and percentiles are further apart than the rounding errors, a solver that finishes finds an answer. Without rounding the rounded build is the exact one. (False: adding the reported action to the point gives a grid value exactly; from 0.03 the action to 0.29 leads to 0.29000000000000004.)", "quantifier": "all roundings, solvers with tolerances, builders, points, histories", "why_tests_cant": "rounding, solver tolerances and the order of summation interact; tests see one solver build on one machine", "anchors": ["recourse/builder.py:RecourseBuilder._get_mip_build_info", "recourse/builder.py:RecourseBuilder.x", "recourse/builder.py:RecourseBuilder.fit", "recourse/builder.py:RecourseBuilder.populate", "recourse/action_set.py:ActionElement.feasible_values"]}
{"id": "C106", "title": "What subset limits really limit", "statement": "A subset limit on some features is applied to other columns when some column is not usable at the point: with the column numbers of the listed features taken as positions in the list of usable columns (compatible columns with a change to offer, in column order, then other listed columns with a change to offer), at least lb and at most ub of the columns found there are not at rest after the action, where a column is at rest if it is unchanged, or zero if it is a listed feature of positive value. If some position does not exist, the assignment of the point raises IndexError; otherwise every answer meets the limits in this form, recourse is reported exactly if some permitted action that follows the alignment reaches the desired score, and meets the item limits and these limits, and the answer is the cheapest of these (total and local costs) or its largest cost exceeds the smallest possible one by less than every step of offered costs (cost type max). If every column up to the last listed one is usable and listed values are not negative, these are the limits as documented.", "quantifier": "all action sets with any subset limits and any alignment, classifiers, points at which grids and percentiles are in order, item limits, cost types, back ends, exact solvers", "why_tests_cant": "the positions coincide with the columns on the test fixtures; an exact characterisation over all inputs", "anchors": ["recourse/builder.py:_RecourseBuilderPythonMIP.build_mip", "recourse/builder.py:_RecourseBuilderCPX.build_mip", "recourse/builder.py:RecourseBuilder._get_mip_build_info", "recourse/action_set.py:ActionSet.feasible_grid"]}
{"id": "C107", "title": "What enumerations enumerate, with any alignment and limits", "statement": "Say that two actions are apart if they change disjoint sets of features (mutually_exclusive), change different sets of features (distinct_subsets, Python-MIP), or leave different sets of columns at rest (distinct_subsets, CPLEX; a column is at rest if it is unchanged, or zero if it is a listed feature of positive value). Any two items of populate() are apart; every item is recourse as the program sees it (C106); with an exact solver item k is the cheapest recourse as the program sees it that is apart from items 1..k-1 (cost type max: up to one step of offered costs); and when the enumeration stops by itself, every recourse as the program sees it fails to be apart from some item. Nothing is assumed of the alignment, the subset limits, the item limits or the predicted outcome of the point.", "quantifier": "all action sets, subset limits, alignments, classifiers, points at which grids and percentiles are in order, both enumeration types and back ends, all exact solvers", "why_tests_cant": "exact characterisation of all items for all inputs; the tests enumerate one fixture with one back end", "anchors": ["recourse/builder.py:RecourseBuilder.populate", "recourse/builder.py:_RecourseBuilderCPX.remove_feature_combination", "recourse/builder.py:_RecourseBuilderPythonMIP.remove_feature_combination"]}
{"id": "C108", "title": "Audits when everything is computed in floating point", "statement": "When grids, changes and scores are computed with rounding (any monotone rounding with relative error u, e.g. IEEE doubles) and the solver meets constraints up to eps and integrality up to delta, audit(X, y) still returns one entry per row of X in the order and with the labels of X, equal rows getting equal entries; an entry is empty exactly if the row has the audited outcome already, for every row whose score exceeds the rounding error of one dot product; cost is inf exactly if feasible is False and NaN exactly if the entry is empty. An entry that says feasible describes a row with an action that is permitted up to rounding and reaches the desired score up to an explicit error (which vanishes with u, eps and delta); an entry that says infeasible describes a row at which no permitted action within the limits reaches the desired score by more than an explicit error. The audit succeeds if every audited row can be assigned. Without rounding all this is the exact audit.", "quantifier": "all auditors reachable through the API with all grids, classifiers, tables, outcomes, roundings, orders of summation of the dot products, back ends and solvers with tolerances", "why_tests_cant": "the tests compare a few rows against a brute force in the same arithmetic; the error bounds must hold for all data and all roundings", "anchors": ["recourse/auditor.py:RecourseAuditor.audit", "recourse/builder.py:RecourseBuilder.x", "recourse/builder.py:RecourseBuilder.fit", "recourse/action_set.py:_BoundElement.update_grid"]}
{"id": "C109", "title": "Flipsets when everything is computed in floating point", "statement": "When grids, changes, scores and new values are computed with rounding and the solver has tolerances eps and delta, after every history of populate() (successful or not), sort() and to_flat_df() on a new flipset: rows of the table correspond one to one to the items and describe them up to rounding (changed features in order of index, x exact, x_new up to relative error u, score_new up to an explicit error, yhat_new the sign of score_new and the true predicted outcome unless the true score is within the error of 0), labels are 0..n-1, flipped is True everywhere, the rows are in the order in force; every item is within an explicit distance of a permitted action that changes between 1 and all actionable features, and misses the desired score by at most an explicit error. populate() does not raise and ends once the builder could be set up, unless the computed score of x is exactly -1, 0 or 1; if it stores nothing on a new flipset, no permitted action within the limits reaches the desired score by more than an explicit error. Without rounding it is the exact populate().", "quantifier": "all action sets with any increasing grids, classifiers, points, histories of calls, roundings, orders of summation, back ends, enumeration types, solvers with tolerances (success: sound solvers)", "why_tests_cant": "the tests look at one flipset in one arithmetic; error bounds must hold for all data and all histories", "anchors": ["recourse/flipset.py:Flipset.populate", "recourse/flipset.py:Flipset._validate_action", "recourse/flipset.py:Flipset._item_to_df_row", "recourse/flipset.py:Flipset.score"]}
{"id": "C110", "title": "Tables do not rely on the sorting algorithm", "statement": "pandas sorts by one column with an algorithm that may rearrange ties. Whatever algorithm sorts the tables, after every history of populate(), sort() and to_flat_df(): rows correspond one to one to the items and describe them, labels are 0..n-1, rows are in the order of the sort columns; populate() returns, raises and stores the same as with any other algorithm; to_flat_df() and to_html() list each item's changed features exactly once (name, current and required value), all lines of an item next to each other in the order of the item numbers; only the order of the lines within an item may vary, and for stable algorithms it is that of the columns.", "quantifier": "all flipsets, histories of calls, solvers, sort columns and sorting algorithms", "why_tests_cant": "numpy's sort is stable on the small tables of tests; the statement is about every algorithm and every table", "anchors": ["recourse/flipset.py:Flipset.sort", "recourse/flipset.py:Flipset.to_flat_df", "recourse/flipset.py:Flipset.to_html", "recourse/flipset.py:Flipset._add_to_df"]}
{"id": "C111", "title": "Objects that share an action set or a builder do not get in each other's way", "statement": "A program makes any number of action sets, builders, auditors and flipsets; builders, auditors and flipsets made for one action set share it, and flipsets may share a builder. (1) In whatever order calls to these objects are interleaved, each object is always in a state that a program with this object alone could have produced (with the user changing its action set). (2) Take a builder (made directly, by an auditor or by a flipset) whose action set is aligned. As long as nobody changes that set or makes an auditor for it with a classifier that wants other directions, whatever else the program does in between - other builders, auditors and flipsets for the same set included - every call to this builder (x, fit, populate, limits, audit, populate and sort of its flipsets) returns or raises exactly what it would without the other calls.", "quantifier": "all programs: all sequences of calls to any number of objects, all data, classifiers and solvers", "why_tests_cant": "interference depends on the order of calls to several objects; tests use one object, or objects one after the other", "anchors": ["recourse/builder.py:RecourseBuilder.__init__", "recourse/auditor.py:RecourseAuditor.__init__", "recourse/flipset.py:Flipset.__init__", "recourse/flipset.py:Flipset.populate", "recourse/action_set.py:ActionSet.set_alignment"]}
{"id": "C112", "title": "Percentiles and costs keep their order in floating point arithmetic", "statement": "The percentile table of a feature is computed by adding up estimated densities and dividing, the percentiles of values by interpolating in it, and costs by subtracting or dividing percentiles and taking logarithms, with a rounding after every operation. Whatever is rounded: (1) every score in the table is the exact score up to a relative error that depends on the number of grid values only; (2) scores lie strictly between 0 and 1 and increase along the grid; (3) larger values have larger percentiles; (4) moving further costs more, and no offered action has cost 0 or less except the null action.", "quantifier": "all features, density estimates that are nonnegative, grids, current values, cost types, and all monotone roundings with a relative error", "why_tests_cant": "rounding errors depend on the bits of all densities and grid values; tests compare a few percentiles with a tolerance", "anchors": ["recourse/action_set.py:_ActionElement.update_interpolator", "recourse/action_set.py:_ActionElement.percentile", "recourse/action_set.py:_ActionElement.feasible_values", "recourse/builder.py:RecourseBuilder._get_mip_build_info"]}
{"id": "C113", "title": "Tables and lists that a flipset hands out", "statement": "df, view() and solutions_info return the objects that the flipset works with, not copies. Whatever methods are called afterwards (populate, sort, to_flat_df, to_html, to_latex): a data frame that was handed out keeps its rows for ever, at most in another order; it is the flipset's own table exactly until populate() adds items, which puts a new data frame in its place that was never handed out before; once replaced it does not change in any way, and nothing a program does to replaced data frames has an effect on what any later call returns or on the flipset. The list of items only grows at its end. As long as a program does not change handed-out objects that are in use, the flipset is in a state that all other properties of flipsets cover.", "quantifier": "all flipsets and all programs that call their methods and change the objects they got, in any order", "why_tests_cant": "aliasing only shows when several calls and changes are interleaved in particular orders", "anchors": ["recourse/flipset.py:Flipset.df", "recourse/flipset.py:Flipset.view", "recourse/flipset.py:Flipset.solutions_info", "recourse/flipset.py:Flipset.populate", "recourse/flipset.py:Flipset.sort", "recourse/flipset.py:Flipset._add", "recourse/flipset.py:Flipset._add_to_df"]}
{"id": "C114", "title": "Arrays that a program passes in and gets back", "statement": "numpy arrays can be written to after they were passed to the library or returned by it. Builders, auditors and flipsets copy the arrays they are given and `builder.x` returns a copy, so a program that writes only to arrays it made itself (also ones that it passed to constructors, setters and methods before) gets exactly the replies it would get if it passed the values its arguments have at the time of each call; and no call ever changes an array of the program. The condition is needed: `builder.coefficients`, `auditor.coefficients` and `flipset.x` return the arrays the objects work with, and a write to one of them changes what the object does afterwards.", "quantifier": "all programs that make and use any number of action sets, builders, auditors and flipsets and write to arrays in between, all solvers and data", "why_tests_cant": "aliasing only shows when calls and writes are interleaved in particular orders", "anchors": ["recourse/helper_functions.py:parse_classifier_args", "recourse/builder.py:RecourseBuilder.x", "recourse/builder.py:RecourseBuilder.coefficients", "recourse/auditor.py:RecourseAuditor.__init__", "recourse/auditor.py:RecourseAuditor.audit", "recourse/flipset.py:Flipset.__init__", "recourse/flipset.py:Flipset.x"]}
{"id": "C115", "title": "Asking for more items appends items", "statement": "Whoever calls populate() of a builder with a total of k gets the first k items (or all, if there are fewer) of the list that a larger total, or no total, gives. If the call found all k items, another call goes on where it stopped: the two calls together give the items, and leave the builder, that one call for the sum gives. The same is true for flipsets: populate(k) followed by populate(m) gives the same items and the same sorted table, up to the numbers of the rows, as populate(k + m); also after sort() was told another order.", "quantifier": "all builders and flipsets in any state, all totals, both enumeration types, all solvers (also ones that stop at limits) that answer the same question at the same point of time in the same way", "why_tests_cant": "there are infinitely many programs and pairs of totals; ties in the table make the order of rows depend on the history", "anchors": ["recourse/builder.py:RecourseBuilder.populate", "recourse/builder.py:RecourseBuilder.remove_all_features", "recourse/builder.py:RecourseBuilder.remove_feature_combination", "recourse/flipset.py:Flipset.populate", "recourse/flipset.py:Flipset._add", "recourse/flipset.py:Flipset._add_to_df", "recourse/flipset.py:Flipset.sort"]}
{"id": "C116", "title": "The cost types agree with each other", "statement": "Two builders of the same action set and classifier with the same item limits, one with mip_cost_type total and one with max, are asked about the same point x that is denied, with solvers run to completion. Either both find an answer or both report that there is none. The total cost is at most the number of changes in the answer of type max times its maximal cost. The maximal cost exceeds the total cost by less than every difference of the costs of two values offered for a feature, and it does not exceed the total cost at all if distinct costs differ by at least one such step.", "quantifier": "all regular situations (see C25): action sets, classifiers, denied points, item limits, and pairs of exact solvers", "why_tests_cant": "compares optima of two families of integer programs, for all instances", "anchors": ["recourse/builder.py:RecourseBuilder.fit", "recourse/builder.py:RecourseBuilder._get_mip_build_info", "recourse/builder.py:RecourseBuilder.mip_cost_type"]}
{"id": "C117", "title": "Part of the advice counts", "statement": "Someone who gets an answer from fit(), makes only some of the changes it lists, is still denied, and asks again at the new point (the same builder or another one with the same data), gets an answer again. With mip_cost_type total or local the new cost is at most the sum of the costs that the first answer listed for the changes that were not made; it is exactly that sum if item limits do not restrict the number of changes (the default; for local, given that the logarithm of a product is the sum of the logarithms). With mip_cost_type max the new cost exceeds the largest of those costs by less than every difference of the costs of two values offered for a feature.", "quantifier": "all regular situations (see C25) before and after: action sets, classifiers, subset limits, denied points, parts of the answer, exact solvers", "why_tests_cant": "relates the optima of two integer programs for different points, for every instance and every part of every optimal answer", "anchors": ["recourse/builder.py:RecourseBuilder.fit", "recourse/builder.py:RecourseBuilder._get_mip_build_info", "recourse/builder.py:RecourseBuilder.x", "recourse/action_set.py:_ActionElement.percentile", "recourse/action_set.py:_ActionElement.feasible_values"]}
{"id": "C118", "title": "The scale of percentiles and costs", "statement": "percentile(v) of a feature lies between 0 and 1, whatever happened to the feature before (update_grid, update_interpolator with any buffers) and whatever v is. Therefore a percentile shift costs at most 1: with mip_cost_type max the cost of every feasible answer is positive and at most 1, with total it is positive and at most the number of changes, and the finite costs in the table of an audit are positive and at most 1.", "quantifier": "all features and their histories, all positive density estimates, all values; all builders, auditors, points and audited tables, exact solvers", "why_tests_cant": "all histories of a feature, all density estimates and a continuum of values", "anchors": ["recourse/action_set.py:_ActionElement.update_interpolator", "recourse/action_set.py:_ActionElement.percentile", "recourse/builder.py:RecourseBuilder.fit", "recourse/auditor.py:RecourseAuditor.audit"]}
{"id": "C119", "title": "Circumstances that cannot be changed matter only through the score", "statement": "Two points agree at all features that are actionable. Then (1) the builder accepts both or neither; (2) if the score of the second is at least as favourable to the desired outcome (same coefficients, cost type and item limits; the intercept and the back end may differ) and there is an answer for the first, there is one for the second, with an objective that is not larger, and for total and local costs a cost that is not larger; (3) if the scores are equal there is an answer for both or for neither, with the same objective and (total and local costs) the same cost. (4) With cost type max, for two denied points in regular situations, the cost for the second exceeds that for the first by less than every cost step, and not at all if distinct costs are at least a cost step apart. (5) In audits: whoever agrees at the actionable features with somebody who has recourse, at a score at least as favourable, already has the outcome or has recourse, at costs as in (4); with equal scores the column feasible is the same. For (1) to (3) no regularity or denial of the points is assumed.", "quantifier": "all reachable builders, pairs of points that agree at actionable features, exact solvers, refits", "why_tests_cant": "all pairs of points and builders", "anchors": ["recourse/builder.py:RecourseBuilder.x", "recourse/builder.py:RecourseBuilder._get_mip_build_info", "recourse/builder.py:RecourseBuilder.fit", "recourse/action_set.py:ActionSet.feasible_grid", "recourse/action_set.py:_ActionElement.feasible_values", "recourse/auditor.py:RecourseAuditor.audit"]}
{"id": "C120", "title": "Equal scores, equal answers, whatever the solver", "statement": "Two points agree at all features that are actionable and have equal scores. If the builder accepts one it accepts the other, and from then on every sequence of calls (fits, enumerations by either method, item limits, assignments of further points) gets the same replies: the same answers item for item, the same exceptions, the same failure to terminate. Nothing is assumed of the solvers, which may stop early, fail, or answer wrongly, except that they answer the same program at the same time equally. In the same way flipsets for the two people get the same items and the same tables, but for the columns with the person's own values; and with a solver that answers equal programs equally, they get equal entries in audits.", "quantifier": "all reachable builders, pairs of points that agree at actionable features and have equal scores, solvers (arbitrary) and sequences of later calls", "why_tests_cant": "all pairs of points, solvers and histories of calls", "anchors": ["recourse/builder.py:RecourseBuilder.x", "recourse/builder.py:RecourseBuilder._get_mip_build_info", "recourse/builder.py:RecourseBuilder.fit", "recourse/builder.py:RecourseBuilder.populate", "recourse/builder.py:RecourseBuilder.set_mip_item_limits", "recourse/flipset.py:Flipset.populate", "recourse/flipset.py:Flipset.sort", "recourse/auditor.py:RecourseAuditor.audit"]}
{"id": "C121", "title": "A refreshed feature is as good as new", "statement": "Take two features with the same data and settings (bounds, variable type, step type, step size, step direction, flip direction, actionability), whatever was done to them before. update_grid() succeeds for both or raises the same exception for both; afterwards they have the same grid and offer the same values and actions at every point; and after update_interpolator with the same buffers they give every value the same percentile. update_grid() leaves a new feature as it is, and doing it twice is doing it once. So whenever a new feature with the settings can be made, update_grid() brings an old one to the same grid and offers.", "quantifier": "all pairs of features in all states with equal settings, all points and values, all buffers", "why_tests_cant": "all histories of features", "anchors": ["recourse/action_set.py:_ActionElement.update_grid", "recourse/action_set.py:_ActionElement.update_interpolator", "recourse/action_set.py:_ActionElement.feasible_values", "recourse/action_set.py:_ActionElement.percentile"]}
{"id": "C122", "title": "The order in which settings are assigned", "statement": "Settings of a feature that are about different things (bounds with lb and ub; step_type with step_size; actionable; variable_type; flip_direction; step_direction) can be assigned in either order: if both assignments are accepted in one order they are accepted in the other, and the feature is the same. step_type and step_size, and lb and ub, give the same feature in both orders when both orders are accepted. Of several assignments to the same setting (other than lb and ub) only the last counts: it is accepted or rejected as it would have been without the earlier ones, with the same result. For settings about the same thing the order can decide whether an assignment is accepted, and what results. Assignments to attributes of different features of an action set (any attributes and values, accepted or not) can be made in any order, with the same set and the same exceptions.", "quantifier": "all features in all states, all pairs of settings, all values assigned", "why_tests_cant": "all states, pairs and values", "anchors": ["recourse/action_set.py:_ActionElement (property setters)", "recourse/action_set.py:ActionSet.__getitem__"]}
