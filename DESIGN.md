# DESIGN

Formal model of ustunb/actionable-recourse (package `recourse`, source in /repo) in Lean 4, in `/verif/lean`.

## Layout

* `Verif/Py.lean`, `Verif/Num.lean`: Python values, exceptions as values, the numpy primitives the code uses.
* `Verif/Model/*.lean`: the code, function by function; every definition cites file and lines and states its
  simplifications.
* `Verif/Spec.lean`: histories (reachable states of features, action sets, builders, auditors, flipsets) and small
  specifications that do not mention the model's algorithms (permitted change, cost of a change, recourse, ...).
  Property files add further local specifications (`IsPercentile`, `DescribesGrid`, `RowOf`, ...).
* `Verif/Lemmas/*.lean`: helper lemmas.  `Verif/Props/*.lean`: the property theorems `Cxx_...`, each with a concrete
  example that meets its hypotheses.
* `tools/manifest.py` (+ `tools/status.json`) regenerates `MANIFEST.json`; `tools/mutate.py` and
  `seeded/mutants.json` are the mutation tests, `seeded/LOG.jsonl` their results.

Naming: `Cxx_..._partial` proves part of property Cxx; `Cxx_..._refuted` proves that the full property is false of the
code, by a concrete reachable counterexample (or for all states).  Where the code violates a property, the property is
kept in its intended form, the refutation is proved, and the strongest true version found is proved as `_partial`.

## Trusted base

1. **Lean's kernel** (4.33.0).  `decide +kernel` (concrete examples and refutations only) is evaluated by the kernel;
   no `native_decide`, no `bv_decide`, no compiled code.
2. **Axioms**: every theorem depends on at most `propext`, `Classical.choice` and `Quot.sound` (Mathlib's standard
   axioms; check with `#print axioms`).  No axiom is added; no proof is left open.
3. **The model is a faithful reading of the code.**  It was written by hand from the source text; nothing was executed
   (the sandbox has none of the project's dependencies).

### What is modelled

| file | modelled |
| --- | --- |
| action_set.py | `_ActionElement`, `_BoundElement`: constructors, all property getters and setters, `update_grid`, `interpolator`, `update_interpolator`, `percentile`, `feasible_values`; `ActionSet`: constructor, `__getitem__`, `__getattribute__`, `__setattr__`, `y_desired`, `set_alignment`, `alignment_known`, `feasible_grid`, `add_constraint`, `remove_constraint`, `df`, `to_latex`, `__str__`; `_ActionConstraints`; `_ActionSlice` reads and assignments; `_expand_values`, `_determine_variable_type`, `_check_variable_names`, `tabulate_actions`, `texify_action_set` |
| builder.py | constructor, `x` setter, `score`, `prediction`, `_get_mip_build_info`, `_check_mip_build_info`, `_check_mip_solution`, `_check_rep`, `build_mip` of both back ends (variables, bounds, linear constraints, SOS sets, objective), `fit`, `populate`, `solution_info` of both, `remove_all_features`, `remove_feature_combination`, `set_mip_item_limits`, `set_mip_min_items`/`max_items`, time/node limits and display settings |
| auditor.py | constructor, `audit` |
| flipset.py | constructor, `score`, `predict`, `yhat`, `populate`, `_add`, `_validate_item`, `_validate_action`, `_item_to_df_row`, `sort`, `df`, `to_flat_df`, rows and names of `to_latex`, lines of `to_html` |
| helper_functions.py | `parse_classifier_args`, `is_sklearn_linear_classifier`, the counting part of `print_recourse_audit_report` |
| cplex_helper.py | `DEFAULT_CPLEX_PARAMETERS`, `set_cpx_parameters`, `get_cpx_parameters`, `set_cpx_display_options`, `set_cpx_time_limit`, `set_cpx_node_limit`, `toggle_cpx_preprocessing`, `set_mip_cutoff_values`, `copy_cplex`, `add_variable_cpx`, `get_stats_cpx` (CPLEX itself: a table of parameters that accepts some values) |
| README.md | the customisation lines of the usage script (74-87) |

### What is not modelled

* `add_mip_start_cpx` of `cplex_helper.py`, the import logic of `defaults.py` (which solvers are installed is a parameter), `paths.py`, plotting, HTML output,
  progress printing, number formatting of tables.
* Pandas inputs: data frames are column labels with rows of numbers, respectively row labels with rows; other dtypes are
  not represented.
* The text of error messages (only the exception class is modelled).

### Simplifications that hold throughout

* **Exact arithmetic**: numbers are elements of an arbitrary linearly ordered field with floor (rationals, reals), not
  IEEE doubles; NaN and infinities appear only where the code uses them as markers.  `np.isclose` tests are modelled
  with their tolerances.  Rounding errors of numpy are covered for grids by C103, for scores and
  predictions by C104, for answers by C105, for audits by C108 and for flipsets by C109 (`Rounding.lean`, `Model/Float*.lean`), and for percentiles and costs by C112, and are outside the model elsewhere.  Feasibility and integrality tolerances of
  solvers are covered by C102 (`SpecTol.lean`); all other properties assume a solver that is exact about the points it reports.
* **External functions are parameters**: `scipy.stats.gaussian_kde`, `np.log`, the iteration order of Python sets, and the
  MIP solver (`Oracle`: any function from integer programs to outcomes).  Theorems quantify over all parameters that
  satisfy an explicit hypothesis (`Oracle.Sound`: reported solutions are feasible/optimal as their status says,
  `Oracle.Complete`: never unfinished, positive densities, `LogOk`).  `Model/RealExt.lean` instantiates the
  logarithm and the density over the real numbers, and C90 proves the hypotheses about them.
* MIP variables carry structured names instead of strings (`u[j][k]`, ...); `Model/Names.lean` gives the
  strings, and C91 proves that different structured names are different strings.
* Sorting is stable in `Model/Flipset.lean` (pandas' default quicksort is not guaranteed to be); `Model/Tables.lean` and C110 remove
  this simplification.  Dictionaries keep insertion order.
* Action sets are values inside builders, auditors and flipsets in most modules, whose histories let the user change the set of an object at any
  time (`.user`).  `Model/Session.lean` models sharing by references, and C111_histories proves that every state of a program with shared objects is
  one of these histories.
* No numpy broadcasting beyond the cases listed in the definitions' comments.
* Enumeration loops take fuel; C41 proves that enough fuel exists, all statements quantify over every fuel.

## Plan and outcome per property

* **C01** Grid shape. *How:* model `update_grid` over an ordered field; closed form of `arange`; induction-free via list-range algebra. *Status:* proved; construction and update_grid after any history; bounds rounded outwards for integer features.
* **C02** Offered values stay within the bounds. *How:* refutation with a literal integer feature; `_partial`: within bounds iff the step divides the range. *Status:* partial; full property refuted by C02_within_bounds_refuted (code bug); exact characterisation proved.
* **C03** Setters of bounds and steps act on what is offered. *How:* op datatype for attribute assignments, induction over op lists: grid invariant; refutation of the intended claim. *Status:* partial; full property refuted by C03_setters_refuted (code bug); setters proved inert, update_grid proved effective.
* **C04** Doing nothing is always offered. *How:* model `feasible_values`; membership; refutation for integer grids. *Status:* partial; full property refuted by C04_noop_refuted (code bug); exact characterisation proved.
* **C05** Feasible values are sorted without duplicates. *How:* sortedness of filtered grid + insertion at `searchsorted`. *Status:* proved.
* **C06** Direction limits are respected. *How:* membership characterisation of `feasible_values`. *Status:* proved.
* **C07** Immutable features and provenance of values. *How:* iff characterisation of membership. *Status:* proved.
* **C08** Percentile scores are a strictly increasing function on the grid range. *How:* model cumulative sums and piecewise linear interpolation; density is an external parameter assumed positive; induction over segments. *Status:* partial; monotone on the grid range and constant outside proved; monotonicity across the ends refuted (C08_percentile_refuted).
* **C09** Bounds objects are ordered and cover the request. *How:* model `_BoundElement.__init__`, `np.percentile`; case analysis. *Status:* proved.
* **C10** Variable type detection. *How:* decision logic. *Status:* proved.
* **C100** Customisation scripts, and the documented usage. *How:* scripts as lists of lines, run until the first exception; induction over the script relates it to the per-feature subscript; the README as an instance, its effect on recourse through C58. *Status:* partial; C100_local, C100_runs: all scripts; C100_corrected, C100_recourse, C100_rebuild: the README with actionable for mutable; refuted as written (C100_readme_refuted, C100_align_refuted, C100_bounds_refuted).
* **C101** Rendered flipsets show the stored items. *How:* HTML: block by block from the flat table of C60; LaTeX: str.replace on lists of characters, induction over the text and over the names. *Status:* partial; C101_html; C101_latex_partial: names that do not occur in other wrapped names; refuted in general (C101_latex_refuted).
* **C102** Answers survive solver tolerances. *How:* rounding the indicators to the choice behind a nearly feasible point; integer constraints with small error hold exactly; cuts read with np.isclose are those of the choice. *Status:* partial; C102_tolerance, C102_items, C102_rounded, C102_cost, C102_max_cost for all tolerances; C102_enumeration and C102_ends for integrality tolerances up to 1e-8; refuted above that (C102_repeat_refuted), and for the vector of costs and the size of the answer itself (C102_noise_refuted); C102_exact, C102_zero: with tolerances 0 these are the statements for exact solvers.
* **C103** Grids in floating point arithmetic. *How:* grids computed with a rounding after every operation; error analysis of the entries and of the count of np.arange; doubles defined and shown to be a rounding. *Status:* partial; C103_exact, C103_grid, C103_offered, C103_integers for every rounding (Scaled: relative error small against the number of steps); the upper bound itself is refuted for doubles (C103_bounds_refuted); doubles are IEEE doubles without overflow and subnormal numbers.
* **C104** Scores and predictions in floating point arithmetic. *How:* dot products as any tree of rounded additions of (possibly rounded) products; forward error bound by induction over the tree; sign with margin. *Status:* partial; C104_error, C104_margin, C104_audit, C104_integers, C104_same, C104_exact for every rounding and order of summation; agreement of auditor and builder on every point is refuted for doubles (C104_order_refuted).
* **C105** Answers when everything is computed in floating point. *How:* the build step with a rounding after every operation; the integer program it creates is related to the exact one by the tolerance analysis of C102 with the rounded actions; for the converse the helpful part of an action with a margin is shown to be a choice of the rounded program: rounding keeps signs, so no grid value is lost unless two of them are closer than the rounding error. *Status:* proved; C105_fit, C105_items, C105_limits (the close action respects subset limits, when rounding does not hide which listed features become 0), C105_found (converse: recourse with a margin of the rounding errors is found), C105_grids, C105_exact; that reported actions lead to exact grid values is refuted (C105_values_refuted).
* **C106** What subset limits really limit. *How:* the list of the columns of the program is specified from the action set and the point; it is shown to be the list the program uses, and the choices of the program to be exactly the recourse that respects the limits at these positions. *Status:* proved; C106_positions (every answer), C106_answers (exact and cheapest), C106_index (IndexError), C106_agree (agrees with C35 when the limits apply).
* **C107** What enumerations enumerate, with any alignment and limits. *How:* the cuts of both back ends are expressed on action vectors (changed features, or columns at rest); induction over the loop. *Status:* proved; C107_apart (every sound solver), C107_next (each item is the best of what is left), C107_stop (nothing is left at the end).
* **C108** Audits when everything is computed in floating point. *How:* the loop over rows keeps the setup of the builder (SameSetup), so every entry is an answer of a builder assigned in floating point; C105 is applied to each. *Status:* proved; C108_rows (shape), C108_feasible, C108_infeasible (both directions with explicit margins), C108_succeeds, C108_exact (no rounding: the exact audit), C108_example.
* **C109** Flipsets when everything is computed in floating point. *How:* invariants over histories as for C49, C58 with rounded rows; error of the dot product at the rounded sum x + a; C105 for the items. *Status:* proved; C109_table (any history), C109_items (NearAllowed with explicit errors), C109_populate (success and termination), C109_found (completeness with a margin), C109_exact (no rounding: the exact populate), C109_example (doubles).
* **C11** compatible is exactly possible usefulness. *How:* decision logic + sign arithmetic. *Status:* proved.
* **C110** Tables do not rely on the sorting algorithm. *How:* sorting algorithm as a parameter; populate with it agrees with the stable one up to the order of rows, so the invariant of C49 carries over; lines grouped by label; merge on (item, position) shown to be row by row since labels are distinct. *Status:* proved; C110_table, C110_items, C110_flat, C110_html for every algorithm that sorts; C110_stable: with a stable one these are C49, C50, C60 (and unstacking and merging columns is the same as reading rows); C110_example: an algorithm that is not stable.
* **C111** Objects that share an action set or a builder do not get in each other's way. *How:* heap model of a program (objects refer to shared sets and builders); (1) invariant over calls; (2) simulation between the program and its restriction to the calls of one builder: sets agree up to cached percentiles, builders and flipsets agree up to the set. *Status:* proved; C111_histories: part 1; C111_interleaved: part 2; C111_new: every builder and auditor that was just made meets its hypotheses; C111_example: a program with two builders, an auditor and a flipset; C111_realign_refuted: the condition on new auditors is needed - an auditor for another classifier makes the builder raise on a point it accepted before.
* **C112** Percentiles and costs keep their order in floating point arithmetic. *How:* roundings as in C104; running sums are monotone under any monotone rounding; error factors multiply; np.interp returns table scores at knots because its slope term is 0 there; interp1d for integer grids recomputes right ends, with four rounding errors. *Status:* partial; (1) is proved (C112_error), also for the percentile of any value inside or outside the grid (C112_value); C112_exact: without rounding these are the percentiles of all other properties. (2)-(4) are proved in their weak form, for grid values of float features: scores never decrease, are above 0 and at most 1 (C112_table_partial), and below 1 unless the densities add up to so much that the buffer is lost (C112_below_one); grid values get exactly the table score (C112_grid); costs are never negative and never decrease with the distance (C112_costs_partial), also in the lists given to the solver (C112_offered_partial). The strict form is false in doubles: the largest score can be 1 (C112_one_refuted), neighbouring scores can be equal, and the move is then not offered (C112_gap_refuted). For values between grid values and for integer features even the weak form is false (C112_between_refuted, C112_integer_refuted). C112_order_partial bounds how far the order can be violated: by a factor that depends only on the number of grid values.
* **C113** Tables and lists that a flipset hands out. *How:* a heap of data frames next to the flipset model; sorting works in place, append makes a new frame; induction over the program; two runs that differ in replaced frames stay equal otherwise. *Status:* proved; C113_rows and C113_frozen: rows of handed-out tables; C113_replaced: changes to replaced tables do not matter; C113_items: the list only grows; C113_histories: link to the histories of the other properties. C113_protected_refuted shows what is not promised: changes of the objects in use change the flipset. Rows are replaced as a whole: the lists inside rows are not objects of their own.
* **C114** Arrays that a program passes in and gets back. *How:* a memory of arrays next to the sessions of C111, and for every object the array it works with; invariant: that array still holds what the object was made with, because calls keep coefficients and points; simulation of the session by induction over the program. *Status:* proved; C114_values: programs that respect arrays in use get the replies of a program that passes values (C111's sessions); C114_own: programs that write to their own arrays only respect them; C114_untouched: calls never write to an array. C114_in_use_refuted shows that the condition is needed. Matrices are lists of rows, and arrays inside tables, items and grids are not in this model (C113).
* **C115** Asking for more items appends items. *How:* the loop with a smaller total stops at a state from which the loop with the larger total goes on (induction over the smaller total, independence of fuel and accumulator); a stable sort absorbs an earlier sort of a part. *Status:* proved; C115_prefix: one list for all totals; C115_steps: builders; C115_flipset: flipsets, with the stable sort of the model (rows that compare equal keep their order; for other sorting algorithms the tables agree up to the order of ties, C110).
* **C116** The cost types agree with each other. *How:* each answer is a permitted recourse for the other builder; minimality of both (C26, C27) and a bound of a sum by the number of its nonzero terms times the largest. *Status:* proved; C116_cost_types.
* **C117** Part of the advice counts. *How:* the rest of the answer is a permitted recourse at the new point with the same costs; in the other direction the part and the new answer merge into one permitted recourse at the old point, and costs satisfy the triangle inequality. *Status:* proved; C117_rest: total and local, bound and exact value; C117_rest_max: the bound for max.
* **C118** The scale of percentiles and costs. *How:* an invariant of cached tables over all histories of a feature: scores increase and lie between 0 and 1; interpolation stays between them; costs are differences of percentiles. *Status:* proved; C118_percentile, C118_move, C118_answer, C118_audit; C118_reached: the bounds are attained.
* **C119** Circumstances that cannot be changed matter only through the score. *How:* a relation between the grids at both points: entries are equal, or belong to a feature with a single offered value; so the features of the program are equal, and every choice admitted at the first point is admitted at the second. *Status:* proved; C119_accepts, C119_better, C119_alike, C119_max, C119_audit, C119_audit_alike.
* **C12** Alignment follows the classifier. *How:* model of `set_alignment`. *Status:* proved.
* **C120** Equal scores, equal answers, whatever the solver. *How:* the programs built at both points are equal (grids of fixed features do not enter), so the builders differ in the stored point only; a simulation over the calls, none of which reads that point. *Status:* proved; C120_alike; C120_flipset, C120_audit.
* **C121** A refreshed feature is as good as new. *How:* the grid, the offers and the table are computed from the settings and the data only; the states compared are arbitrary. *Status:* proved; C121_forgets, C121_current, C121_as_new; C121_example.
* **C122** The order in which settings are assigned. *How:* each setter is brought into the form: parse the value (reading only fields of its own topic and the data), store it; then stores to different fields commute. *Status:* proved; C122_commute, C122_steps, C122_bounds, C122_last, C122_features; C122_order_matters shows where the order matters.
* **C13** Alignment stays consistent with y_desired over histories. *How:* induction over histories of set_alignment / y_desired. *Status:* partial; full property refuted by the code; proved for histories without redundant 0 assignments.
* **C14** Broadcast of attribute assignments. *How:* model `_expand_values` over Python values, `__setattr__`; refutation. *Status:* partial; one-element lists and slices naming a feature twice refuted; all other shapes and slices proved.
* **C15** Selection of features. *How:* model `__getitem__` over Python index values; refutation for bool lists. *Status:* partial; boolean lists refuted; all other index kinds proved.
* **C16** Marking a feature immutable as documented. *How:* `setattr` with unknown attribute; refutation. *Status:* partial; refuted by C16_mutable_refuted; inertness of the documented attribute and effect of actionable proved.
* **C17** Construction of an action set. *How:* model `__init__`. *Status:* proved; including the exact condition for success with default arguments (C17_succeeds).
* **C18** Constraint identifiers. *How:* op lists on the constraint registry; refutation with chosen ids. *Status:* partial; freshness refuted when callers choose ids; proved when every id is automatic.
* **C19** Stored constraints are well formed. *How:* invariant by induction over op lists. *Status:* proved.
* **C20** feasible_grid covers exactly the usable features. *How:* model `feasible_grid`. *Status:* proved.
* **C21** Equivalent ways of passing a classifier. *How:* model the dispatch. *Status:* proved.
* **C22** Actions returned by fit are actionable recourse. *How:* literal integer program (variables, linear constraints, SOS); decode any feasible point; quantify over every sound solver. *Status:* proved; for every sound solver, also with subset limits.
* **C23** The returned action flips the prediction. *How:* consequence of C22 for the sign; refutation witness with score 0. *Status:* partial; the property fails in the code: the score constraint is not strict (C23_flip_refuted); proved: the new prediction is never the undesired one, and it is the desired one unless the new score is exactly 0.
* **C24** The integer program represents every choice. *How:* bijection choices <-> feasible points. *Status:* proved.
* **C25** No recourse is certified correctly. *How:* C24 + exchange argument (moves against the flip direction of features in no subset limit can be zeroed). *Status:* proved; for regular situations (Spec.Regular; subset limits allowed when they apply) and denied points, any history of refits.
* **C26** Total and local costs are minimal. *How:* C24 + exchange argument on costs. *Status:* proved; for regular situations (Spec.Regular; subset limits allowed when they apply) and denied points, any history of refits.
* **C27** Max cost is minimal. *How:* refutation instance; additive bound. *Status:* partial; full property refuted by C27_max_refuted (code bug); bound on the excess and exactness under a cost-step condition proved.
* **C28** Reported costs are consistent. *How:* decode of solution_info. *Status:* proved.
* **C29** Solver limits do not produce wrong certificates. *How:* solver outcome datatype; refutations per back end. *Status:* partial; full property refuted (C29_limits_refuted, C29_incumbent_refuted; code bug); exact list of the cases in which feasible = False is reported proved.
* **C30** Both back ends pose the same problem. *How:* equality of feasible regions/objective of the two builds. *Status:* proved.
* **C31** Action sets aligned to another classifier. *How:* refutation instance + raise theorem For other signs: the exchange argument with alignment required only of the changed features (exchange_any) gives the exact answer set.. *Status:* partial; full property refuted (C31_missed_refuted, C31_raises_refuted; code bug); proved for equal coefficient signs and unaligned sets, and exactly what happens otherwise: C31_no_recourse and C31_sum_minimal (recourse among the features whose recorded direction agrees), C31_raises (which points are rejected).
* **C32** Item limits. *How:* model of set_mip_item_limits on the program. *Status:* partial; full property refuted (C32_limits_refuted, C32_ignored_refuted; code bug); effect at the next assignment and effective limits before it proved; also refuted through the attribute setters (C32_attribute_refuted) and for refused negative limits (C32_rejected_refuted).
* **C33** Assigning x starts afresh. *How:* history independence of the state after assigning x. *Status:* proved.
* **C34** Failed assignment of x. *How:* state returned also on exceptions; refutation. *Status:* partial; the property fails in the code (C34_failed_refuted); proved: exactly what a failed assignment changes, and that later fits answer for the old program.
* **C35** Subset limits are enforced. *How:* refutation + `_partial` when all columns up to the last listed one are usable (`Spec.LimitsApply`). *Status:* partial; full property refuted (C35_subset_refuted, C35_raises_refuted; code bug); proved when every column up to the last listed one is usable and listed points are nonnegative; C106 says exactly what the limits limit in all other cases.
* **C36** Nothing to change means no recourse. *How:* both cost types. *Status:* partial; the property fails in the code for total and local costs (C36_empty_refuted); proved for cost type max, and that total/local always raise.
* **C37** distinct_subsets never repeats a feature combination. *How:* induction over the enumeration loop; cut lemma. *Status:* proved; Python-MIP with or without subset limits, CPLEX without; CPLEX with subset limits is C43.
* **C38** distinct_subsets is exhaustive. *How:* loop invariant. *Status:* proved; for regular situations and denied points, also with subset limits (Python-MIP; CPLEX: binary listed features, see C43); for cost type max optimality up to one cost step, as in C27.
* **C39** Items come in order of cost. *How:* loop invariant (shrinking feasible regions). *Status:* proved.
* **C40** mutually_exclusive items share no feature. *How:* loop invariant. *Status:* proved.
* **C41** Enumeration terminates. *How:* fuel bound; strictly decreasing number of remaining patterns. *Status:* proved.
* **C42** Enumeration is not repeated by later calls. *How:* loop invariant over two runs; refutation of optimality of fit. *Status:* proved.
* **C43** CPLEX enumeration with subset limits. *How:* refutation instance. *Status:* partial; full property refuted by C43_cpx_refuted (code bug); proved when listed features of positive value can only be kept or set to zero; C107 says exactly which combinations CPLEX tells apart.
* **C44** Audit has one row per input row. *How:* model of audit (np.unique, reindex, iloc). *Status:* proved.
* **C45** Audit entries. *How:* model of audit + C22/C25. *Status:* proved; infeasible entries certified for regular situations; for cost type max optimality up to one cost step, as in C27.
* **C46** Audit of an approved population. *How:* model of audit. *Status:* partial; full property refuted by C46_approved_refuted (KeyError when nobody is denied; code bug); proved when somebody is denied.
* **C47** Audit for the undesired outcome. *How:* refutation instance + theorem when settings agree. *Status:* partial; full property refuted by C47_undesired_refuted (audit ignores action_set.y_desired; code bug); proved when the two agree.
* **C48** Audit does not depend on row order. *How:* feasibility is determined by the row alone (exact solver). *Status:* proved.
* **C49** Flipset table mirrors the items. *How:* invariant over histories. *Status:* proved.
* **C50** Flipset order. *How:* sortedness; lexicographic order. *Status:* proved; orders set by an in-place sort; sort(inplace=False) switches later sorting off.
* **C51** flipped is truthful. *How:* sign arithmetic; refutation. *Status:* partial; full property refuted by C51_flipped_refuted (the sign is compared with the raw score; code bug); proved: the column is truthful at denied points.
* **C52** Adding items is all or nothing. *How:* validation precedes mutation. *Status:* proved.
* **C53** Cost type of later populates. *How:* state machine of Flipset.populate. *Status:* partial; full property refuted by C53_later_refuted (later calls reuse the first builder; code bug); proved for the first populate.
* **C54** Audit report counts. *How:* model of the counting; universally zero. *Status:* partial; full property refuted by C54_report_refuted (no-recourse count is always 0 and the report raises NameError; code bug); the other counts proved.
* **C55** Solver limits are clipped, never rejected late. *How:* decision logic + min. *Status:* partial; acceptance, CPLEX clipping and fit overrides proved; for Python-MIP None/inf keeps an earlier node limit and 0<x<1 becomes 0 (C55_nodes_refuted, C55_zero_refuted; code bug).
* **C56** Percentiles refer to the current grid. *How:* table as part of the state, induction over histories that keep it in sync; pointwise description of the interpolated distribution function; refutation. *Status:* partial; full property refuted by C56_stale_refuted (update_grid keeps the cached interpolator; code bug); proved for histories where update_grid precedes the first percentile evaluation or is followed by update_interpolator.
* **C57** A failing broadcast assignment changes nothing. *How:* induction over the assignment loop; refutation. *Status:* partial; full property refuted by C57_atomic_refuted (a broadcast assignment that fails part-way leaves earlier features changed; code bug); proved: single-element assignments, and exactly which features a failed assignment changes.
* **C58** Everything in a flipset is recourse. *How:* invariant over histories of populate. *Status:* proved.
* **C59** populate succeeds at a denied point. *How:* composition of C22/C37 with validation. *Status:* proved.
* **C60** The flat table lists every change of every item. *How:* list algebra on the rows; refutation for empty LaTeX tables. *Status:* partial; to_flat_df proved; to_latex raises on an empty flipset (C60_latex_refuted; code bug).
* **C61** Solver settings read back what was set. *How:* induction over histories of assignments; refutation. *Status:* partial; time and node limits proved when mip_display is never assigned; mip_display refuted (C61_display_refuted; code bug).
* **C62** Assignments to a feature's attributes mean what they say. *How:* case analysis per attribute, `np.percentile` specified independently. *Status:* proved.
* **C63** Attributes of all features read and write back. *How:* reads as maps over features; idempotence of the bound constructor; refutation for percentile bounds. *Status:* partial; reads proved; writing back refuted for percentile bounds (C63_bounds_refuted: the value read is written as a percentile rank; code bug) and proved for all other attributes.
* **C64** Tables of an action set describe it. *How:* rows described feature by feature; refutation for LaTeX and slices. *Status:* partial; df and str(A) proved; to_latex refuted for features that may only decrease and for integer/binary types (C64_latex_refuted; operator precedence and comparison of a type with a string), printing slices always raises (C64_slice_refuted; code bugs).
* **C65** Answers depend only on the decision boundary. *How:* apply C66 in both directions, with the factor and its inverse; refutation for factor 1e-9. *Status:* partial; same answers whenever both assignments are accepted; acceptance refuted (C65_scale_refuted: coefficients up to 1e-8 count as zero; code limitation).
* **C66** A more favourable threshold never hurts. *How:* choices admitted by the first programme are admitted by the second: same moves, score affine in the factor and the intercept; exact solvers then compare. *Status:* proved; proved for a scaled classifier with a more favourable intercept, factor 1 being the plain statement.
* **C67** Cost type does not decide whether there is recourse. *How:* signs of both cost formulas agree when percentiles are below 1, so the same actions are dropped and the same choices are admitted. *Status:* proved; for kernel densities for which percentiles stay under 1, see percentile_below for a sufficient condition.
* **C68** No superfluous changes. *How:* undo part of a choice: still admitted, strictly cheaper objective; contradiction with optimality; for enumerations with what earlier items cut. *Status:* proved; fit and both enumeration types; max costs in regular situations as stated.
* **C69** Every recommended change helps. *How:* compatible features are oriented towards the desired side; every choice inherits it. *Status:* proved; fit and populate, for every sound solver and history.
* **C70** Whoever follows the advice is approved by the audit. *How:* combine C22 with the selection rule of the audit; refutation with one binary feature. *Status:* partial; exact characterisation proved; full property refuted for desired outcome -1 at score 0 (C70_done_refuted; code inconsistency between auditor and builder).
* **C71** Lifting restrictions never hurts. *How:* recourse and costs carry over along the relaxation; then C25, C26, C27. *Status:* proved; via the certificates C25-C27 of both builders.
* **C72** The attributes min_items and max_items. *How:* direct on the setters; the next answer through C22 and the invariant of reachable builders. *Status:* proved; the values read, the current answer and every later answer.
* **C73** Minimum number of changes. *How:* exchange argument within actions of at least min_items changes. *Status:* proved; for total and local costs; C73_harmful shows that the restriction to useful actions is needed.
* **C74** Constructors do what their arguments say. *How:* model of __new__/__init__ with keyword arguments, installed solvers and the shared action set. *Status:* partial; everything but the last sentence proved; that sentence is false (C74_failing_refuted: failing constructors align or re-align the set).
* **C75** Unknown cost types never lead to an answer. *How:* the program without objective has the same feasible assignments; exact solver. *Status:* partial; no wrong answer: fit raises exactly when recourse exists; the refusal of the name is false (C75_unknown_refuted).
* **C76** The two outcomes are treated alike. *How:* the two programs have the same feasible choices and objectives (score constraint negated). *Status:* proved; acceptance (C76_accepts) and answers (C76_symmetric); mkActionSet_opposite shows that the two new sets differ in the outcome only.
* **C77** The order of the columns does not matter. *How:* build information column by column; programs with the same features at other positions, choices mapped by feature name; with subset limits the choices mapped by name have the same numbers of nonzero features. *Status:* partial; proved without subset limits (C77_accepts_partial, C77_order_partial; C77_new for sets made from permuted data) and with subset limits that apply at both points (C77_subsets_partial; LimitsApply); with subset limits that do not, it is false (C77_limits_refuted).
* **C78** Features that cannot be used can be left out. *How:* as C77: incompatible columns contribute no feature; with subset limits the same (`Leaves`). *Status:* partial; proved without subset limits (C78_accepts_partial, C78_frozen_partial) and with subset limits that apply at both points (C78_subsets_partial; LimitsApply); with subset limits that do not, it is false (C78_limits_refuted).
* **C79** The audit report describes the audited people. *How:* inner joins on index labels; countP of the joined rows; sorted lists for the median. *Status:* partial; proved for distinct index labels (C79_size_partial, C79_costs_partial), exact size for all labels (C79_size_exact); false whenever a label repeats (C79_size_refuted), and only the first label is reported (C79_report_stops).
* **C80** A builder follows later changes of its action set. *How:* both builders pose the same question (SameQuestion); comparison of admitted choices. *Status:* partial; acceptance proved (C80_accepts); answers proved when the old item limits admit what a new builder admits (C80_follows_partial, C80_limits); false when features became actionable after construction (C80_grown_refuted).
* **C81** Using an action set leaves it as it is. *How:* normal form of a set with all percentile tables filled; invariant over all uses; setters commute with the normal form. *Status:* partial; unchanged looks proved for builders, auditors and flipsets (C81_builder, C81_auditor, C81_flipset); later attribute assignments proved (C81_later_partial); false for update_grid (C81_later_refuted).
* **C82** The order of the people in the data does not matter. *How:* sorting and the type test are invariant under permutations; the rest of the constructor is a function of them. *Status:* proved.
* **C83** Units of measurement do not matter. *How:* every stage of the constructor commutes with the conversion; recourse is transferred action by action; minimal costs by C26. *Status:* partial; sets, recourse, feasibility proved for real-valued columns, and for integer columns shifted by integers, with relative steps and regular situations (C83_new, C83_recourse, C83_feasible_partial); costs when the density estimate follows the data (C83_percentiles, C83_costs_partial); false for integer columns under scaling, for binary columns, below the tolerance, and for costs under scaling (C83_integers_refuted, C83_binary_refuted, C83_tolerance_refuted, C83_scale_costs_refuted).
* **C84** An audit and a flipset agree. *How:* C45 and C53 for the two sides; the action sets offer the same actions at the same costs (Lemmas/Offers), regular situations carry over. *Status:* proved.
* **C85** Replacing a feature of an action set. *How:* direct; alignment through mkBuilder_aligned and C12; replacement (by an element of the same name) is a step of the histories of action sets, so all theorems about reachable sets cover it. *Status:* proved; assignment, order, new and old builders proved for all sets and elements (C85_item, C85_order, C85_new_builder, C85_old_builder); the name under which a feature is filed need not be its name (C85_names_refuted); an element aligned with another classifier is not noticed (C85_aligned_refuted).
* **C86** Constructor arguments, flags and internal checks. *How:* equivalence by inverting the do-blocks; checks by the invariants of elements (bounds in order, grids strictly increasing) and C74; flags by induction over the history of the set. *Status:* proved; exact description of the constructor (C86_construct, C86_constructed), of custom and default bounds (C86_custom, C86_bounds), of the flags (C86_flags, C86_flags_read, C86_repr, C86_builder) and of the internal checks (C86_feature_check, C86_feature_unchecked, C86_builder_check); an assignment to one feature breaks the invariant checked by the set (C86_invariant_refuted), and illegal flags of a builder are refused only after the set was aligned (C86_builder_refuted).
* **C87** The builder's own check of its answers. *How:* fit_report (C28) and C22 give costs and counts; offered moves are never close to 0 (FeatSpec.offered), so the tolerant comparison of the check finds exactly the changed features; C23 for rejected persons. *Status:* proved; exact characterisation (C87_check), silent pass for rejected persons (C87_pass, C87_fresh); the asides in the statement are C87_raises_refuted and C87_warns_refuted.
* **C88** Exactly which points a builder accepts. *How:* totality lemma for every step of the assignment (feasible grid, build info, checks, limits), converse from buildInfo_spec; Fresh.lean specialises to new sets. *Status:* proved; exact when grids and percentiles are in order, for any alignment and any subset limits (C88_exact); in regular situations (C88_accepts), for new sets (C88_fresh), for data of zeros and ones (C88_binary) and with the real logarithm and density (C88_real).
* **C89** Who has recourse over a new action set. *How:* C25 gives infeasibility when no combination reaches; the choice of the ends of all grids is a combination, and dominates every other one term by term. *Status:* proved; C89_ends, C89_all_or_none, C89_binary, C89_audit.
* **C90** The whole pipeline over the real numbers. *How:* instantiate the external functions over the reals (Real.log, mean of normal densities); prove positivity, existence and monotonicity; apply C17_succeeds, C88 and C89. *Status:* proved; C90_real, C90_pipeline, C90_audit; the aside in the statement is C90_constant_refuted.
* **C91** The programs handed to the solver are well formed. *How:* decimal notation is injective and separators are not digits; invariant of programs kept by cuts and item limits, by induction over histories. *Status:* proved; C91_names (names as strings), C91_program (all times), C91_constraints (new programs).
* **C92** One-hot encodings. *How:* C35 and C22 for groups; limits apply by the shape of the grids; C25 and C88 for one group, all points with at most one 1 are unit vectors or 0. *Status:* proved; C92_group (any history), C92_applies and C92_accepts (indicators in the first columns), C92_categories and C92_test (one group).
* **C93** Enumerations do not depend on the solver. *How:* traces of two enumerations of one program; a position-by-position comparison by a pigeonhole argument on feature sets. *Status:* proved; C93_enumeration (builders), C93_flipsets; C93_example.
* **C94** Ties in mutually exclusive enumerations. *How:* C30 for the first item; an exact solver steered to a given optimum for the refutation. *Status:* partial; C94_first_partial: the first item; C94_mutex_refuted: two exact solvers, one item against two.
* **C95** Audits do not depend on the solver. *How:* both audits reduced to one posed program (C30, C45); an exact solver steered to either of two optima for the refutation. *Status:* partial; C95_audits_partial: same success, same rows, costs within every cost step, equal when costs are spaced; C95_cost_refuted: a tie between a larger maximum and a larger sum; C95_example.
* **C96** The project's own tests hold for all data. *How:* each test transcribed as a sequence of modelled calls; reduced to C12, C17, C18, C22, C28, C36, C37, C40, C44 and C86. *Status:* proved; one theorem per test function, following its statements; distinct_subsets on the action vectors themselves (the test truncates them to integers first).
* **C97** CPLEX parameters take effect. *How:* a solver object as a function from parameter names to values with a log of refusals; effect of a sequence of settings by induction over the sequence. *Status:* partial; C97_set, C97_accepts, C97_ignored, C97_twice, C97_valid, C97_defaults; refuted for lifting a limit (C97_lift_refuted) and for limits during fit (C97_overridden).
* **C98** Helpers for CPLEX objects. *How:* the same solver object; each helper as a sequence of settings. *Status:* partial; C98_preprocessing, C98_cutoff, C98_copy, C98_muted, C98_stats; refuted: restoring bound_strengthening, reading the parameters, switching the display on again.
* **C99** Adding variables to a program. *How:* conversion of every argument shape to a list, then position by position. *Status:* partial; C99_add: single values, full lists, arrays of floats; C99_single_refuted: lists with one value raise TypeError; C99_array_refuted: arrays of integers fail an assertion; C99_lengths: wrong lengths raise; C99_ignored_refuted: for one name a longer list is accepted and cut.

## Defects of the code found while modelling

Each is visible in the model; where a property is affected its refutation is named.

1. The grid may overshoot the upper bound by less than one step (C02_within_bounds_refuted).
2. Assigning bounds, step size or step type does not rebuild the grid (C03_setters_refuted).
3. A non-integral current value is truncated when inserted into an integer grid, so "no change" is missing (C04_noop_refuted).
4. A constant non-binary column with relative steps makes construction fail (step 0).
5. `y_desired = 0` on a set with `y_desired = -1` reverses all flip directions (C13).
6. A one-element list is broadcast as a list, not as its element (C14_broadcast_refuted).
7. Boolean lists as indices are read as integers (C15).
8. The README's `.mutable = False` sets an unrelated attribute (C16_mutable_refuted).
9. Automatic constraint ids may collide with user-chosen ones (C18).
10. Subset limits use column indices as positions in the list of usable features (C35_subset_refuted, C35_raises_refuted).
11. The score constraint is not strict: the new score may be exactly 0 (C23_flip_refuted).
12. For cost type `max` the tie-break weight is not small enough, the maximum is not minimal (C27_max_refuted).
13. An unfinished solver run is reported as "no recourse exists" (C29_limits_refuted, C29_incumbent_refuted).
14. The builder keeps the alignment of another classifier (C31).
15. `set_mip_item_limits` acts on part of the program only (C32).
16. A failing assignment of `x` stores the new point but keeps the old program (C34_failed_refuted).
17. With nothing to change, cost types `total`/`local` raise `KeyError` (C36_empty_refuted).
18. CPLEX `distinct_subsets` cuts on indicators of setting features to zero (C43_cpx_refuted).
19. `fit` after `populate` answers for the cut program (C42).
20. `audit` raises `KeyError` when nobody is denied (C46_approved_refuted).
21. `audit(y_desired)` is independent of `action_set.y_desired` (C47_undesired_refuted).
22. The `flipped` column compares a sign with a raw score (C51_flipped_refuted).
23. Later `Flipset.populate` calls ignore `cost_type` (C53_later_refuted).
24. The audit report always counts 0 people without recourse and raises `NameError` (C54_report_refuted).
25. Percentiles are not monotone across the ends of the grid (C08_percentile_refuted).
26. Coefficients up to 1e-8, or constrained features with coefficient 0, raise `AssertionError`.
27. Actions with nonpositive percentile cost are dropped from the program.
28. `update_grid` keeps the cached interpolator (C56_stale_refuted).
29. Python-MIP: `node_limit = None` keeps an earlier limit, limits below 1 become 0 (C55_nodes_refuted, C55_zero_refuted).
30. `mip_display`: the getter always raises, the setter overwrites the node limit (C61_display_refuted).
31. `Flipset.to_latex` raises on an empty flipset (C60_latex_refuted).
32. A flipset action of the wrong length raises `AttributeError` instead of being rejected cleanly.
33. A failing broadcast assignment is not atomic (C57_atomic_refuted).
34. Constrained features with a current value strictly inside their offered values raise `AssertionError`.
35. `set_mip_item_limits(0, k)` after a limit of at least 1 admits the empty action until `x` is assigned again.
36. `Flipset.sort(inplace = False)` switches off sorting for later calls (C50).
37. Slices naming a feature twice cannot be assigned a scalar (C14_repeated_refuted).
38. The `step_type` setter does not recheck that relative step sizes are at most 1.
39. `A.update_grid` on a set is a list of methods, not callable.
40. `str(A[...])` always raises (C64_slice_refuted).
41. `to_latex` of a set describes "only decreases" as "only increases" and every type as real (C64_latex_refuted).
42. `A.lb = A.lb` moves percentile bounds (C63_bounds_refuted).
43. Multiplying a classifier by a small positive number can make the same point be rejected: coefficients up to `1e-8`
    count as zero (C65_scale_refuted).
44. For the desired outcome -1, a person who carried out a recommended action and reached score 0 is audited again and may be
    reported as having no recourse (C70_done_refuted).
45. `set_mip_item_limits(k, m)` after `builder.min_items = k` does nothing: the program keeps its old limits
    (C32_attribute_refuted).
46. `set_mip_item_limits(-1, k)` raises `AssertionError` after having changed the program: `fit` then answers "change
    nothing at cost 0" to a denied person (C32_rejected_refuted).
47. With `min_items = k`, recourse that needs a change in a harmful direction to reach k changes is not found
    (C73_harmful).
48. A constructor that raises has already aligned the action set; an auditor that refuses its solver has re-aligned it
    (C74_failing_refuted).
49. A misspelt `mip_cost_type` is accepted, and `fit` raises `AttributeError` exactly when there is recourse
    (C75_unknown_refuted).
50. With subset limits the order of the columns matters: the same point is accepted in one order and raises `IndexError`
    in another, also because of a feature with coefficient 0 (C77_limits_refuted, C78_limits_refuted).
51. The audit report counts a person whose index label occurs k times k*k times (C79_size_refuted); with a column called
    `feasible`, `cost` or `y` in X it raises `KeyError` (C79_report_stops).
52. A feature made actionable after a builder was made is never used together with the others beyond the old `max_items`:
    recourse is missed, and `max_items` cannot be raised (C80_grown_refuted).
53. `A["a"].ub = 10; A["a"].update_grid()` on a set that was used before keeps outdated percentiles: the next builder raises
    `AssertionError` for points it accepts on a fresh set (C81_later_refuted).
54. Integer columns: recourse depends on the units, because percentile bounds are rounded outwards to integers
    (C83_integers_refuted).
55. Columns with very small numbers: all changes within 1e-8 count as no change, and assigning a point raises `ValueError`
    (C83_tolerance_refuted).
56. Reported costs depend on the units: the buffer 1e-6 is added to sums of densities, which are not normalised
    (C83_scale_costs_refuted).
57. `A[name] = e` does not compare `e.name` with `name`: `A["a"]` can be an element called `b`, and builders then raise `KeyError` (C85_names_refuted).
58. `A[name] = e` with an element aligned with another classifier leaves the set "aligned": new builders do not realign it, and
    recourse that exists is not found (C85_aligned_refuted).
59. `A[name] = e` with a new element makes existing builders raise `AssertionError` for every point until a new builder or
    `set_alignment` aligns the set (C85_old_builder, C85_example).
60. `repr(A)` raises `TypeError` when `print_flag` is off: `__repr__` returns `None` (C86_repr).
61. A custom bound for a misspelt name is ignored without a message (C86_custom); `names` is ignored for data frames.
62. `_check_rep` of a set (all features aligned, or none) runs only in the constructor; `A["a"].flip_direction = 1` breaks
    what it checks (C86_invariant_refuted).
63. `RecourseBuilder(..., print_flag = 1)` raises, but has aligned the action set (C86_builder_refuted).
64. `_check_mip_solution` is called nowhere, and would raise or warn on correct answers (C87_raises_refuted,
    C87_warns_refuted): its message "near-zero score" is issued exactly when the score is *not* near zero.
65. A column that is 0 (or 1) for everybody is accepted by `ActionSet`, but if the classifier uses it every assignment
    `b.x = x` raises `LinAlgError` from scipy (C90_constant_refuted).
66. `populate(enumeration_type = 'mutually_exclusive')` is greedy: depending on which of several equally good solutions the
    solver returns first it finds one item or two (C94_mutex_refuted), so CPLEX and Python-MIP, or two versions of
    one solver, may give flipsets of different lengths.
67. The costs in an audit depend on which of several equally good solutions the solver returns, because the objective for cost type
    `max` trades the largest cost against a multiple of the sum (C95_cost_refuted): `test_compare_auditors` can fail for
    two correct solvers.
68. `A[name].actionable = [False]` makes the feature actionable: the check accepts a one-element list, `bool([False])` is
    `True` (C62_actionable_refuted).
69. Time and node limits in `cplex_parameters` are never in force while solving: `fit` and `populate` overwrite them, with
    the largest possible value if no limit is passed (C97_overridden).
70. `set_mip_parameters` cannot lift a limit: entries at or above the defaults are skipped (C97_lift_refuted).
71. `objdifference`, `scale_parameters`, `poolrelgap` and `nodefilesize` are documented parameters without any effect (C97_ignored).
72. `display_cplex_progress = None` does not silence the solver: `is (None or False)` is `is False` (C97_set).
73. `get_cpx_parameters` raises `AttributeError` for every solver object (C98_get_refuted).
74. Once a solver object has been silenced the display cannot be turned on again (C98_muted, C98_display_refuted): after one `fit` with
    the display off, `display_flag = True` shows nothing.
75. `toggle_cpx_preprocessing` off and on replaces the user's `bound_strengthening` by the default of CPLEX
    (C98_preprocessing_refuted).
76. `add_variable_cpx` with a one-element list for several variables raises `TypeError`, although its own error message asks for
    length 1 or n (C99_single_refuted); an array of integers fails an assertion where a list of integers is accepted (C99_array_refuted); bounds given for variables that are all binary are ignored (C99_add).
77. `b.mip_time_limit = 5` lasts until the next point: `b.x = x` builds a program with default limits, while `b.mip_time_limit` still
    reads 5 (C55_rebuild_refuted).
78. The usage script of the README does not run: `A[[...]].mutable = False` raises `AssertionError` on every set
    (C100_readme_refuted), and `A.align` does not exist (C100_align_refuted); with both lines corrected the bounds it sets for
    `EducationLevel` and `TotalMonthsOverdue` are still not in force (C100_bounds_refuted) until `update_grid()` is called
    (C100_rebuild).
79. `Flipset.to_latex` wraps names by text replacement, one variable after the other: with variables `Age` and `AgeGroup` the second
    is shown as `\textit{Age}Group`, and a variable called `it` destroys the formatter of the others (C101_latex_refuted).
80. `remove_all_features` and `remove_feature_combination` read the indicators with `np.isclose(value, 0.0)` (1e-8), the default integrality
    tolerance of Python-MIP is 1e-6 (the CPLEX builder sets it to 0): an indicator reported as 1e-7 is taken for "not changed", the item is not removed, and
    `populate` returns it again and again; without a bound it does not end (C102_repeat_refuted).
81. `solution_info` finds the costs by the position of the non-zero indicators: one indicator of 1e-9 shifts the costs of the following
    features, so that a feature is shown with the cost of a move of another one (C102_noise_refuted).
82. The number of changed features of an answer is counted by `a != 0`: solver noise of 1e-9 counts as a change, and the
    answer exceeds `max_items` (C102_noise_refuted).
83. `update_grid` asks `np.arange` for values below `stop + step`; in doubles the number of values may come out one too large: with bounds
    0 and 21 and the default step 0.01 the grid has 102 values and ends at 21.21, so that actions beyond the upper bound are offered
    (C103_bounds_refuted).  In experiments this happens for about one in six pairs of bounds.
84. The auditor computes `X.dot(w)` and compares with `-intercept`; the builder computes `w.dot(x) + intercept` for the same row.  The two may
    add in different orders: with weights 0.1, 0.2, 0.3 and intercept -0.6 the row (1, 1, 1) is selected by the auditor, but the builder does not
    predict -1 for it (C104_order_refuted).
85. Actions are reported as differences `v - x`; in doubles `x + (v - x)` need not be `v`: from 0.03 the action to the grid value 0.29 leads to
    0.29000000000000004 (C105_values_refuted).  This happens for about one in six pairs of values on the default grid between 0 and 1.
86. Whether a two-valued column can be used depends on its codes: with 0 and 1 both values are offered; with 1 and 2 the bounds are percentiles, and if
    fewer than 1% of the people have the value 2 the constructor of the action set raises (the grid has step 0; C83_binary_refuted).
87. The auditor's constructor re-aligns the action set it is given, also if the set is in use: a builder for another classifier and the same set then
    raises for points it accepted before (C111_realign_refuted).  All other uses of shared sets are harmless (C111_interleaved).
88. In doubles a grid value at which few training values lie gets the same percentile as its neighbour; the move there then costs 0, the builder takes
    it for a numerical issue (builder.py:369-374) and silently does not offer it (C112_gap_refuted).
89. In doubles the percentile of the largest grid value is exactly 1 if the densities over the grid add up to more than about 10^10 (features measured
    on a very small scale); the local cost of moving there is then infinite (C112_one_refuted; C112_below_one gives a bound that excludes it).
90. `interp1d` interpolates grids of integers with its own code, which does not reproduce table scores at grid values: in doubles a larger
    grid value can have a smaller percentile (C112_integer_refuted), with the effect of finding 88 (or a negative cost).
91. `df`, `view()` and `solutions_info` hand out the flipset's own objects: a program that drops rows from the data frame it got empties `to_flat_df()`, and one
    that changes the list removes items from the flipset while the table keeps them (C113_protected_refuted).  And `to_flat_df`, `to_html` and
    `to_latex` reorder a data frame that the program got earlier.
92. `builder.coefficients`, `auditor.coefficients` and `flipset.x` return the arrays that the objects work with (builder.py:186-187, auditor.py:36,
    flipset.py:74-78), `builder.x` and the values of a feature are copies.  Who writes to `auditor.coefficients` gets audits that decide with one
    classifier who is denied and search actions for another (C114_in_use_refuted).
