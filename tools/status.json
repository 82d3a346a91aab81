{
 "C01": [
  "proved",
  "construction and update_grid after any history; bounds rounded outwards for integer features"
 ],
 "C02": [
  "partial",
  "full property refuted by C02_within_bounds_refuted (code bug); exact characterisation proved"
 ],
 "C03": [
  "partial",
  "full property refuted by C03_setters_refuted (code bug); setters proved inert, update_grid proved effective"
 ],
 "C09": [
  "proved",
  ""
 ],
 "C10": [
  "proved",
  ""
 ],
 "C04": [
  "partial",
  "full property refuted by C04_noop_refuted (code bug); exact characterisation proved"
 ],
 "C05": [
  "proved",
  ""
 ],
 "C06": [
  "proved",
  ""
 ],
 "C07": [
  "proved",
  ""
 ],
 "C08": [
  "partial",
  "monotone on the grid range and constant outside proved; monotonicity across the ends refuted (C08_percentile_refuted)"
 ],
 "C11": [
  "proved",
  ""
 ],
 "C12": [
  "proved",
  ""
 ],
 "C13": [
  "partial",
  "full property refuted by the code; proved for histories without redundant 0 assignments"
 ],
 "C14": [
  "partial",
  "one-element lists and slices naming a feature twice refuted; all other shapes and slices proved"
 ],
 "C15": [
  "partial",
  "boolean lists refuted; all other index kinds proved"
 ],
 "C16": [
  "partial",
  "refuted by C16_mutable_refuted; inertness of the documented attribute and effect of actionable proved"
 ],
 "C17": [
  "proved",
  "including the exact condition for success with default arguments (C17_succeeds)"
 ],
 "C18": [
  "partial",
  "freshness refuted when callers choose ids; proved when every id is automatic"
 ],
 "C19": [
  "proved",
  ""
 ],
 "C20": [
  "proved",
  ""
 ],
 "C21": [
  "proved",
  ""
 ],
 "C22": [
  "proved",
  "for every sound solver, also with subset limits"
 ],
 "C23": [
  "partial",
  "the property fails in the code: the score constraint is not strict (C23_flip_refuted); proved: the new prediction is never the undesired one, and it is the desired one unless the new score is exactly 0"
 ],
 "C24": [
  "proved",
  ""
 ],
 "C28": [
  "proved",
  ""
 ],
 "C30": [
  "proved",
  ""
 ],
 "C33": [
  "proved",
  ""
 ],
 "C34": [
  "partial",
  "the property fails in the code (C34_failed_refuted); proved: exactly what a failed assignment changes, and that later fits answer for the old program"
 ],
 "C36": [
  "partial",
  "the property fails in the code for total and local costs (C36_empty_refuted); proved for cost type max, and that total/local always raise"
 ],
 "C25": [
  "proved",
  "for regular situations (Spec.Regular; subset limits allowed when they apply) and denied points, any history of refits"
 ],
 "C26": [
  "proved",
  "for regular situations (Spec.Regular; subset limits allowed when they apply) and denied points, any history of refits"
 ],
 "C27": [
  "partial",
  "full property refuted by C27_max_refuted (code bug); bound on the excess and exactness under a cost-step condition proved"
 ],
 "C29": [
  "partial",
  "full property refuted (C29_limits_refuted, C29_incumbent_refuted; code bug); exact list of the cases in which feasible = False is reported proved"
 ],
 "C31": [
  "partial",
  "full property refuted (C31_missed_refuted, C31_raises_refuted; code bug); proved for equal coefficient signs and unaligned sets, and exactly what happens otherwise: C31_no_recourse and C31_sum_minimal (recourse among the features whose recorded direction agrees), C31_raises (which points are rejected)"
 ],
 "C32": [
  "partial",
  "full property refuted (C32_limits_refuted, C32_ignored_refuted; code bug); effect at the next assignment and effective limits before it proved; also refuted through the attribute setters (C32_attribute_refuted) and for refused negative limits (C32_rejected_refuted)"
 ],
 "C35": [
  "partial",
  "full property refuted (C35_subset_refuted, C35_raises_refuted; code bug); proved when every column up to the last listed one is usable and listed points are nonnegative; C106 says exactly what the limits limit in all other cases"
 ],
 "C37": [
  "proved",
  "Python-MIP with or without subset limits, CPLEX without; CPLEX with subset limits is C43"
 ],
 "C38": [
  "proved",
  "for regular situations and denied points, also with subset limits (Python-MIP; CPLEX: binary listed features, see C43); for cost type max optimality up to one cost step, as in C27"
 ],
 "C39": [
  "proved",
  ""
 ],
 "C40": [
  "proved",
  ""
 ],
 "C41": [
  "proved",
  ""
 ],
 "C42": [
  "proved",
  ""
 ],
 "C43": [
  "partial",
  "full property refuted by C43_cpx_refuted (code bug); proved when listed features of positive value can only be kept or set to zero; C107 says exactly which combinations CPLEX tells apart"
 ],
 "C44": [
  "proved",
  ""
 ],
 "C45": [
  "proved",
  "infeasible entries certified for regular situations; for cost type max optimality up to one cost step, as in C27"
 ],
 "C46": [
  "partial",
  "full property refuted by C46_approved_refuted (KeyError when nobody is denied; code bug); proved when somebody is denied"
 ],
 "C47": [
  "partial",
  "full property refuted by C47_undesired_refuted (audit ignores action_set.y_desired; code bug); proved when the two agree"
 ],
 "C48": [
  "proved",
  ""
 ],
 "C54": [
  "partial",
  "full property refuted by C54_report_refuted (no-recourse count is always 0 and the report raises NameError; code bug); the other counts proved"
 ],
 "C49": [
  "proved",
  ""
 ],
 "C50": [
  "proved",
  "orders set by an in-place sort; sort(inplace=False) switches later sorting off"
 ],
 "C52": [
  "proved",
  ""
 ],
 "C58": [
  "proved",
  ""
 ],
 "C51": [
  "partial",
  "full property refuted by C51_flipped_refuted (the sign is compared with the raw score; code bug); proved: the column is truthful at denied points"
 ],
 "C53": [
  "partial",
  "full property refuted by C53_later_refuted (later calls reuse the first builder; code bug); proved for the first populate"
 ],
 "C55": [
  "partial",
  "acceptance, CPLEX clipping and fit overrides proved; for Python-MIP None/inf keeps an earlier node limit and 0<x<1 becomes 0 (C55_nodes_refuted, C55_zero_refuted; code bug)"
 ],
 "C59": [
  "proved",
  ""
 ],
 "C60": [
  "partial",
  "to_flat_df proved; to_latex raises on an empty flipset (C60_latex_refuted; code bug)"
 ],
 "C61": [
  "partial",
  "time and node limits proved when mip_display is never assigned; mip_display refuted (C61_display_refuted; code bug)"
 ],
 "C57": [
  "partial",
  "full property refuted by C57_atomic_refuted (a broadcast assignment that fails part-way leaves earlier features changed; code bug); proved: single-element assignments, and exactly which features a failed assignment changes"
 ],
 "C62": [
  "proved",
  ""
 ],
 "C56": [
  "partial",
  "full property refuted by C56_stale_refuted (update_grid keeps the cached interpolator; code bug); proved for histories where update_grid precedes the first percentile evaluation or is followed by update_interpolator"
 ],
 "C63": [
  "partial",
  "reads proved; writing back refuted for percentile bounds (C63_bounds_refuted: the value read is written as a percentile rank; code bug) and proved for all other attributes"
 ],
 "C64": [
  "partial",
  "df and str(A) proved; to_latex refuted for features that may only decrease and for integer/binary types (C64_latex_refuted; operator precedence and comparison of a type with a string), printing slices always raises (C64_slice_refuted; code bugs)"
 ],
 "C65": [
  "partial",
  "same answers whenever both assignments are accepted; acceptance refuted (C65_scale_refuted: coefficients up to 1e-8 count as zero; code limitation)"
 ],
 "C66": [
  "proved",
  "proved for a scaled classifier with a more favourable intercept, factor 1 being the plain statement"
 ],
 "C67": [
  "proved",
  "for kernel densities for which percentiles stay under 1, see percentile_below for a sufficient condition"
 ],
 "C68": [
  "proved",
  "fit and both enumeration types; max costs in regular situations as stated"
 ],
 "C69": [
  "proved",
  "fit and populate, for every sound solver and history"
 ],
 "C70": [
  "partial",
  "exact characterisation proved; full property refuted for desired outcome -1 at score 0 (C70_done_refuted; code inconsistency between auditor and builder)"
 ],
 "C71": [
  "proved",
  "via the certificates C25-C27 of both builders"
 ],
 "C72": [
  "proved",
  "the values read, the current answer and every later answer"
 ],
 "C73": [
  "proved",
  "for total and local costs; C73_harmful shows that the restriction to useful actions is needed"
 ],
 "C74": [
  "partial",
  "everything but the last sentence proved; that sentence is false (C74_failing_refuted: failing constructors align or re-align the set)"
 ],
 "C75": [
  "partial",
  "no wrong answer: fit raises exactly when recourse exists; the refusal of the name is false (C75_unknown_refuted)"
 ],
 "C76": [
  "proved",
  "acceptance (C76_accepts) and answers (C76_symmetric); mkActionSet_opposite shows that the two new sets differ in the outcome only"
 ],
 "C77": [
  "partial",
  "proved without subset limits (C77_accepts_partial, C77_order_partial; C77_new for sets made from permuted data) and with subset limits that apply at both points (C77_subsets_partial; LimitsApply); with subset limits that do not, it is false (C77_limits_refuted)"
 ],
 "C78": [
  "partial",
  "proved without subset limits (C78_accepts_partial, C78_frozen_partial) and with subset limits that apply at both points (C78_subsets_partial; LimitsApply); with subset limits that do not, it is false (C78_limits_refuted)"
 ],
 "C79": [
  "partial",
  "proved for distinct index labels (C79_size_partial, C79_costs_partial), exact size for all labels (C79_size_exact); false whenever a label repeats (C79_size_refuted), and only the first label is reported (C79_report_stops)"
 ],
 "C80": [
  "partial",
  "acceptance proved (C80_accepts); answers proved when the old item limits admit what a new builder admits (C80_follows_partial, C80_limits); false when features became actionable after construction (C80_grown_refuted)"
 ],
 "C81": [
  "partial",
  "unchanged looks proved for builders, auditors and flipsets (C81_builder, C81_auditor, C81_flipset); later attribute assignments proved (C81_later_partial); false for update_grid (C81_later_refuted)"
 ],
 "C82": [
  "proved",
  ""
 ],
 "C83": [
  "partial",
  "sets, recourse, feasibility proved for real-valued columns, and for integer columns shifted by integers, with relative steps and regular situations (C83_new, C83_recourse, C83_feasible_partial); costs when the density estimate follows the data (C83_percentiles, C83_costs_partial); false for integer columns under scaling, for binary columns, below the tolerance, and for costs under scaling (C83_integers_refuted, C83_binary_refuted, C83_tolerance_refuted, C83_scale_costs_refuted)"
 ],
 "C84": [
  "proved",
  ""
 ],
 "C85": [
  "proved",
  "assignment, order, new and old builders proved for all sets and elements (C85_item, C85_order, C85_new_builder, C85_old_builder); the name under which a feature is filed need not be its name (C85_names_refuted); an element aligned with another classifier is not noticed (C85_aligned_refuted)"
 ],
 "C86": [
  "proved",
  "exact description of the constructor (C86_construct, C86_constructed), of custom and default bounds (C86_custom, C86_bounds), of the flags (C86_flags, C86_flags_read, C86_repr, C86_builder) and of the internal checks (C86_feature_check, C86_feature_unchecked, C86_builder_check); an assignment to one feature breaks the invariant checked by the set (C86_invariant_refuted), and illegal flags of a builder are refused only after the set was aligned (C86_builder_refuted)"
 ],
 "C87": [
  "proved",
  "exact characterisation (C87_check), silent pass for rejected persons (C87_pass, C87_fresh); the asides in the statement are C87_raises_refuted and C87_warns_refuted"
 ],
 "C88": [
  "proved",
  "exact when grids and percentiles are in order, for any alignment and any subset limits (C88_exact); in regular situations (C88_accepts), for new sets (C88_fresh), for data of zeros and ones (C88_binary) and with the real logarithm and density (C88_real)"
 ],
 "C89": [
  "proved",
  "C89_ends, C89_all_or_none, C89_binary, C89_audit"
 ],
 "C90": [
  "proved",
  "C90_real, C90_pipeline, C90_audit; the aside in the statement is C90_constant_refuted"
 ],
 "C91": [
  "proved",
  "C91_names (names as strings), C91_program (all times), C91_constraints (new programs)"
 ],
 "C92": [
  "proved",
  "C92_group (any history), C92_applies and C92_accepts (indicators in the first columns), C92_categories and C92_test (one group)"
 ],
 "C93": [
  "proved",
  "C93_enumeration (builders), C93_flipsets; C93_example"
 ],
 "C94": [
  "partial",
  "C94_first_partial: the first item; C94_mutex_refuted: two exact solvers, one item against two"
 ],
 "C95": [
  "partial",
  "C95_audits_partial: same success, same rows, costs within every cost step, equal when costs are spaced; C95_cost_refuted: a tie between a larger maximum and a larger sum; C95_example"
 ],
 "C96": [
  "proved",
  "one theorem per test function, following its statements; distinct_subsets on the action vectors themselves (the test truncates them to integers first)"
 ],
 "C97": [
  "partial",
  "C97_set, C97_accepts, C97_ignored, C97_twice, C97_valid, C97_defaults; refuted for lifting a limit (C97_lift_refuted) and for limits during fit (C97_overridden)"
 ],
 "C98": [
  "partial",
  "C98_preprocessing, C98_cutoff, C98_copy, C98_muted, C98_stats; refuted: restoring bound_strengthening, reading the parameters, switching the display on again"
 ],
 "C99": [
  "partial",
  "C99_add: single values, full lists, arrays of floats; C99_single_refuted: lists with one value raise TypeError; C99_array_refuted: arrays of integers fail an assertion; C99_lengths: wrong lengths raise; C99_ignored_refuted: for one name a longer list is accepted and cut"
 ],
 "C100": [
  "partial",
  "C100_local, C100_runs: all scripts; C100_corrected, C100_recourse, C100_rebuild: the README with actionable for mutable; refuted as written (C100_readme_refuted, C100_align_refuted, C100_bounds_refuted)"
 ],
 "C101": [
  "partial",
  "C101_html; C101_latex_partial: names that do not occur in other wrapped names; refuted in general (C101_latex_refuted)"
 ],
 "C102": [
  "partial",
  "C102_tolerance, C102_items, C102_rounded, C102_cost, C102_max_cost for all tolerances; C102_enumeration and C102_ends for integrality tolerances up to 1e-8; refuted above that (C102_repeat_refuted), and for the vector of costs and the size of the answer itself (C102_noise_refuted); C102_exact, C102_zero: with tolerances 0 these are the statements for exact solvers"
 ],
 "C103": [
  "partial",
  "C103_exact, C103_grid, C103_offered, C103_integers for every rounding (Scaled: relative error small against the number of steps); the upper bound itself is refuted for doubles (C103_bounds_refuted); doubles are IEEE doubles without overflow and subnormal numbers"
 ],
 "C104": [
  "partial",
  "C104_error, C104_margin, C104_audit, C104_integers, C104_same, C104_exact for every rounding and order of summation; agreement of auditor and builder on every point is refuted for doubles (C104_order_refuted)"
 ],
 "C105": [
  "proved",
  "C105_fit, C105_items, C105_limits (the close action respects subset limits, when rounding does not hide which listed features become 0), C105_found (converse: recourse with a margin of the rounding errors is found), C105_grids, C105_exact; that reported actions lead to exact grid values is refuted (C105_values_refuted)"
 ],
 "C106": [
  "proved",
  "C106_positions (every answer), C106_answers (exact and cheapest), C106_index (IndexError), C106_agree (agrees with C35 when the limits apply)"
 ],
 "C107": [
  "proved",
  "C107_apart (every sound solver), C107_next (each item is the best of what is left), C107_stop (nothing is left at the end)"
 ],
 "C108": [
  "proved",
  "C108_rows (shape), C108_feasible, C108_infeasible (both directions with explicit margins), C108_succeeds, C108_exact (no rounding: the exact audit), C108_example"
 ],
 "C109": [
  "proved",
  "C109_table (any history), C109_items (NearAllowed with explicit errors), C109_populate (success and termination), C109_found (completeness with a margin), C109_exact (no rounding: the exact populate), C109_example (doubles)"
 ],
 "C110": [
  "proved",
  "C110_table, C110_items, C110_flat, C110_html for every algorithm that sorts; C110_stable: with a stable one these are C49, C50, C60 (and unstacking and merging columns is the same as reading rows); C110_example: an algorithm that is not stable"
 ],
 "C111": [
  "proved",
  "C111_histories: part 1; C111_interleaved: part 2; C111_new: every builder and auditor that was just made meets its hypotheses; C111_example: a program with two builders, an auditor and a flipset; C111_realign_refuted: the condition on new auditors is needed - an auditor for another classifier makes the builder raise on a point it accepted before"
 ],
 "C112": [
  "partial",
  "(1) is proved (C112_error), also for the percentile of any value inside or outside the grid (C112_value); C112_exact: without rounding these are the percentiles of all other properties. (2)-(4) are proved in their weak form, for grid values of float features: scores never decrease, are above 0 and at most 1 (C112_table_partial), and below 1 unless the densities add up to so much that the buffer is lost (C112_below_one); grid values get exactly the table score (C112_grid); costs are never negative and never decrease with the distance (C112_costs_partial), also in the lists given to the solver (C112_offered_partial). The strict form is false in doubles: the largest score can be 1 (C112_one_refuted), neighbouring scores can be equal, and the move is then not offered (C112_gap_refuted). For values between grid values and for integer features even the weak form is false (C112_between_refuted, C112_integer_refuted). C112_order_partial bounds how far the order can be violated: by a factor that depends only on the number of grid values"
 ],
 "C113": [
  "proved",
  "C113_rows and C113_frozen: rows of handed-out tables; C113_replaced: changes to replaced tables do not matter; C113_items: the list only grows; C113_histories: link to the histories of the other properties. C113_protected_refuted shows what is not promised: changes of the objects in use change the flipset. Rows are replaced as a whole: the lists inside rows are not objects of their own"
 ],
 "C114": [
  "proved",
  "C114_values: programs that respect arrays in use get the replies of a program that passes values (C111's sessions); C114_own: programs that write to their own arrays only respect them; C114_untouched: calls never write to an array. C114_in_use_refuted shows that the condition is needed. Matrices are lists of rows, and arrays inside tables, items and grids are not in this model (C113)"
 ],
 "C115": [
  "proved",
  "C115_prefix: one list for all totals; C115_steps: builders; C115_flipset: flipsets, with the stable sort of the model (rows that compare equal keep their order; for other sorting algorithms the tables agree up to the order of ties, C110)"
 ],
 "C116": [
  "proved",
  "C116_cost_types"
 ],
 "C117": [
  "proved",
  "C117_rest: total and local, bound and exact value; C117_rest_max: the bound for max"
 ],
 "C118": [
  "proved",
  "C118_percentile, C118_move, C118_answer, C118_audit; C118_reached: the bounds are attained"
 ],
 "C119": [
  "proved",
  "C119_accepts, C119_better, C119_alike, C119_max, C119_audit, C119_audit_alike"
 ],
 "C120": [
  "proved",
  "C120_alike; C120_flipset, C120_audit"
 ],
 "C121": [
  "proved",
  "C121_forgets, C121_current, C121_as_new; C121_example"
 ],
 "C122": [
  "proved",
  "C122_commute, C122_steps, C122_bounds, C122_last, C122_features; C122_order_matters shows where the order matters"
 ]
}