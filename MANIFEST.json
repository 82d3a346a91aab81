{
 "claims": [
  {
   "property": "C01",
   "status": "proved",
   "theorems": [
    "Recourse.C01_grid_shape_new",
    "Recourse.C01_grid_shape_update",
    "Recourse.C01_bounds_exact"
   ],
   "note": "construction and update_grid after any history; bounds rounded outwards for integer features"
  },
  {
   "property": "C02",
   "status": "partial",
   "theorems": [
    "Recourse.C02_within_bounds_partial",
    "Recourse.C02_within_bounds_new_partial",
    "Recourse.C02_within_bounds_refuted"
   ],
   "note": "full property refuted by C02_within_bounds_refuted (code bug); exact characterisation proved"
  },
  {
   "property": "C03",
   "status": "partial",
   "theorems": [
    "Recourse.C03_setters_inert_partial",
    "Recourse.C03_update_effective",
    "Recourse.C03_setters_refuted"
   ],
   "note": "full property refuted by C03_setters_refuted (code bug); setters proved inert, update_grid proved effective"
  },
  {
   "property": "C04",
   "status": "partial",
   "theorems": [
    "Recourse.C04_noop_partial",
    "Recourse.C04_noop_refuted"
   ],
   "note": "full property refuted by C04_noop_refuted (code bug); exact characterisation proved"
  },
  {
   "property": "C05",
   "status": "proved",
   "theorems": [
    "Recourse.C05_sorted"
   ],
   "note": ""
  },
  {
   "property": "C06",
   "status": "proved",
   "theorems": [
    "Recourse.C06_direction"
   ],
   "note": ""
  },
  {
   "property": "C07",
   "status": "proved",
   "theorems": [
    "Recourse.C07_immutable",
    "Recourse.C07_exact"
   ],
   "note": ""
  },
  {
   "property": "C08",
   "status": "partial",
   "theorems": [
    "Recourse.C08_percentile_partial",
    "Recourse.C08_percentile_refuted"
   ],
   "note": "monotone on the grid range and constant outside proved; monotonicity across the ends refuted (C08_percentile_refuted)"
  },
  {
   "property": "C09",
   "status": "proved",
   "theorems": [
    "Recourse.C09_bounds_ordered",
    "Recourse.C09_bounds_missing",
    "Recourse.C09_bounds_absolute",
    "Recourse.C09_bounds_default",
    "Recourse.C09_bounds_percentile",
    "Recourse.C09_bounds_percentile_accepted",
    "Recourse.C09_bounds_percentile_value",
    "Recourse.C09_bound_types"
   ],
   "note": ""
  },
  {
   "property": "C10",
   "status": "proved",
   "theorems": [
    "Recourse.C10_variable_type",
    "Recourse.C10_type_invariant"
   ],
   "note": ""
  },
  {
   "property": "C11",
   "status": "proved",
   "theorems": [
    "Recourse.C11_compatible"
   ],
   "note": ""
  },
  {
   "property": "C12",
   "status": "proved",
   "theorems": [
    "Recourse.C12_alignment"
   ],
   "note": ""
  },
  {
   "property": "C13",
   "status": "partial",
   "theorems": [
    "Recourse.C13_consistency_partial",
    "Recourse.C13_consistency_refuted",
    "Recourse.C13_values"
   ],
   "note": "full property refuted by the code; proved for histories without redundant 0 assignments"
  },
  {
   "property": "C14",
   "status": "partial",
   "theorems": [
    "Recourse.C14_slice_partial",
    "Recourse.C14_element",
    "Recourse.C14_repeated_refuted",
    "Recourse.C14_broadcast_partial",
    "Recourse.C14_broadcast_refuted"
   ],
   "note": "one-element lists and slices naming a feature twice refuted; all other shapes and slices proved"
  },
  {
   "property": "C15",
   "status": "partial",
   "theorems": [
    "Recourse.C15_selection_partial",
    "Recourse.C15_slices",
    "Recourse.C15_selection_refuted"
   ],
   "note": "boolean lists refuted; all other index kinds proved"
  },
  {
   "property": "C16",
   "status": "partial",
   "theorems": [
    "Recourse.C16_mutable_partial",
    "Recourse.C16_mutable_refuted"
   ],
   "note": "refuted by C16_mutable_refuted; inertness of the documented attribute and effect of actionable proved"
  },
  {
   "property": "C17",
   "status": "proved",
   "theorems": [
    "Recourse.C17_succeeds",
    "Recourse.C17_construction",
    "Recourse.C17_constant_column_raises"
   ],
   "note": "including the exact condition for success with default arguments (C17_succeeds)"
  },
  {
   "property": "C18",
   "status": "partial",
   "theorems": [
    "Recourse.C18_add_effect",
    "Recourse.C18_remove",
    "Recourse.C18_auto_ids_partial",
    "Recourse.C18_ids_refuted"
   ],
   "note": "freshness refuted when callers choose ids; proved when every id is automatic"
  },
  {
   "property": "C19",
   "status": "proved",
   "theorems": [
    "Recourse.C19_wellformed",
    "Recourse.C19_rejected"
   ],
   "note": ""
  },
  {
   "property": "C20",
   "status": "proved",
   "theorems": [
    "Recourse.C20_feasible_grid"
   ],
   "note": ""
  },
  {
   "property": "C21",
   "status": "proved",
   "theorems": [
    "Recourse.C21_classifier_args",
    "Recourse.C21_accepted_is_passed"
   ],
   "note": ""
  },
  {
   "property": "C22",
   "status": "proved",
   "theorems": [
    "Recourse.C22_actionable",
    "Recourse.C22_items_actionable",
    "Recourse.C22_example"
   ],
   "note": "for every sound solver, also with subset limits"
  },
  {
   "property": "C23",
   "status": "partial",
   "theorems": [
    "Recourse.C23_flip_partial",
    "Recourse.C23_flip_refuted"
   ],
   "note": "the property fails in the code: the score constraint is not strict (C23_flip_refuted); proved: the new prediction is never the undesired one, and it is the desired one unless the new score is exactly 0"
  },
  {
   "property": "C24",
   "status": "proved",
   "theorems": [
    "Recourse.C24_program"
   ],
   "note": ""
  },
  {
   "property": "C25",
   "status": "proved",
   "theorems": [
    "Recourse.C25_no_recourse",
    "Recourse.C25_example"
   ],
   "note": "for regular situations (Spec.Regular; subset limits allowed when they apply) and denied points, any history of refits"
  },
  {
   "property": "C26",
   "status": "proved",
   "theorems": [
    "Recourse.C26_sum_minimal"
   ],
   "note": "for regular situations (Spec.Regular; subset limits allowed when they apply) and denied points, any history of refits"
  },
  {
   "property": "C27",
   "status": "partial",
   "theorems": [
    "Recourse.C27_max_partial",
    "Recourse.C27_max_refuted"
   ],
   "note": "full property refuted by C27_max_refuted (code bug); bound on the excess and exactness under a cost-step condition proved"
  },
  {
   "property": "C28",
   "status": "proved",
   "theorems": [
    "Recourse.C28_costs"
   ],
   "note": ""
  },
  {
   "property": "C29",
   "status": "partial",
   "theorems": [
    "Recourse.C29_limits_partial",
    "Recourse.C29_limits_refuted",
    "Recourse.C29_incumbent_refuted"
   ],
   "note": "full property refuted (C29_limits_refuted, C29_incumbent_refuted; code bug); exact list of the cases in which feasible = False is reported proved"
  },
  {
   "property": "C30",
   "status": "proved",
   "theorems": [
    "Recourse.C30_backends"
   ],
   "note": ""
  },
  {
   "property": "C31",
   "status": "partial",
   "theorems": [
    "Recourse.C31_no_recourse",
    "Recourse.C31_sum_minimal",
    "Recourse.C31_raises",
    "Recourse.C31_situated_example",
    "Recourse.C31_raises_example",
    "Recourse.C31_alignment_partial",
    "Recourse.C31_missed_refuted",
    "Recourse.C31_raises_refuted"
   ],
   "note": "full property refuted (C31_missed_refuted, C31_raises_refuted; code bug); proved for equal coefficient signs and unaligned sets, and exactly what happens otherwise: C31_no_recourse and C31_sum_minimal (recourse among the features whose recorded direction agrees), C31_raises (which points are rejected)"
  },
  {
   "property": "C32",
   "status": "partial",
   "theorems": [
    "Recourse.C32_attribute_refuted",
    "Recourse.C32_rejected_refuted",
    "Recourse.C32_limits_partial",
    "Recourse.C32_ignored_refuted",
    "Recourse.C32_limits_refuted",
    "Recourse.C32_example"
   ],
   "note": "full property refuted (C32_limits_refuted, C32_ignored_refuted; code bug); effect at the next assignment and effective limits before it proved; also refuted through the attribute setters (C32_attribute_refuted) and for refused negative limits (C32_rejected_refuted)"
  },
  {
   "property": "C33",
   "status": "proved",
   "theorems": [
    "Recourse.C33_fresh"
   ],
   "note": ""
  },
  {
   "property": "C34",
   "status": "partial",
   "theorems": [
    "Recourse.C34_failed_partial",
    "Recourse.C34_failed_refuted",
    "Recourse.C34_action_set_partial",
    "Recourse.C34_untouched"
   ],
   "note": "the property fails in the code (C34_failed_refuted); proved: exactly what a failed assignment changes, and that later fits answer for the old program"
  },
  {
   "property": "C35",
   "status": "partial",
   "theorems": [
    "Recourse.C35_subset_partial",
    "Recourse.C35_subset_refuted",
    "Recourse.C35_raises_refuted",
    "Recourse.C35_example"
   ],
   "note": "full property refuted (C35_subset_refuted, C35_raises_refuted; code bug); proved when every column up to the last listed one is usable and listed points are nonnegative; C106 says exactly what the limits limit in all other cases"
  },
  {
   "property": "C36",
   "status": "partial",
   "theorems": [
    "Recourse.C36_empty_partial",
    "Recourse.C36_empty_refuted"
   ],
   "note": "the property fails in the code for total and local costs (C36_empty_refuted); proved for cost type max, and that total/local always raise"
  },
  {
   "property": "C37",
   "status": "proved",
   "theorems": [
    "Recourse.C37_distinct",
    "Recourse.C37_example"
   ],
   "note": "Python-MIP with or without subset limits, CPLEX without; CPLEX with subset limits is C43"
  },
  {
   "property": "C38",
   "status": "proved",
   "theorems": [
    "Recourse.C38_exhaustive"
   ],
   "note": "for regular situations and denied points, also with subset limits (Python-MIP; CPLEX: binary listed features, see C43); for cost type max optimality up to one cost step, as in C27"
  },
  {
   "property": "C39",
   "status": "proved",
   "theorems": [
    "Recourse.C39_sorted"
   ],
   "note": ""
  },
  {
   "property": "C40",
   "status": "proved",
   "theorems": [
    "Recourse.C40_disjoint",
    "Recourse.C40_exhaustive"
   ],
   "note": ""
  },
  {
   "property": "C41",
   "status": "proved",
   "theorems": [
    "Recourse.C41_terminates"
   ],
   "note": ""
  },
  {
   "property": "C42",
   "status": "proved",
   "theorems": [
    "Recourse.C42_not_repeated",
    "Recourse.C42_fit_after_populate"
   ],
   "note": ""
  },
  {
   "property": "C43",
   "status": "partial",
   "theorems": [
    "Recourse.C43_cpx_partial",
    "Recourse.C43_cpx_refuted",
    "Recourse.C43_example"
   ],
   "note": "full property refuted by C43_cpx_refuted (code bug); proved when listed features of positive value can only be kept or set to zero; C107 says exactly which combinations CPLEX tells apart"
  },
  {
   "property": "C44",
   "status": "proved",
   "theorems": [
    "Recourse.C44_rows"
   ],
   "note": ""
  },
  {
   "property": "C45",
   "status": "proved",
   "theorems": [
    "Recourse.C45_entries",
    "Recourse.C45_example"
   ],
   "note": "infeasible entries certified for regular situations; for cost type max optimality up to one cost step, as in C27"
  },
  {
   "property": "C46",
   "status": "partial",
   "theorems": [
    "Recourse.C46_approved_refuted",
    "Recourse.C46_succeeds_partial",
    "Recourse.C46_example"
   ],
   "note": "full property refuted by C46_approved_refuted (KeyError when nobody is denied; code bug); proved when somebody is denied"
  },
  {
   "property": "C47",
   "status": "partial",
   "theorems": [
    "Recourse.C47_outcome_partial",
    "Recourse.C47_undesired_refuted"
   ],
   "note": "full property refuted by C47_undesired_refuted (audit ignores action_set.y_desired; code bug); proved when the two agree"
  },
  {
   "property": "C48",
   "status": "proved",
   "theorems": [
    "Recourse.C48_order",
    "Recourse.C48_subset_succeeds"
   ],
   "note": ""
  },
  {
   "property": "C49",
   "status": "proved",
   "theorems": [
    "Recourse.C49_table",
    "Recourse.C49_example"
   ],
   "note": ""
  },
  {
   "property": "C50",
   "status": "proved",
   "theorems": [
    "Recourse.C50_order"
   ],
   "note": "orders set by an in-place sort; sort(inplace=False) switches later sorting off"
  },
  {
   "property": "C51",
   "status": "partial",
   "theorems": [
    "Recourse.C51_flipped_refuted",
    "Recourse.C51_constant",
    "Recourse.C51_flipped_partial"
   ],
   "note": "full property refuted by C51_flipped_refuted (the sign is compared with the raw score; code bug); proved: the column is truthful at denied points"
  },
  {
   "property": "C52",
   "status": "proved",
   "theorems": [
    "Recourse.C52_atomic"
   ],
   "note": ""
  },
  {
   "property": "C53",
   "status": "partial",
   "theorems": [
    "Recourse.C53_later_refuted",
    "Recourse.C53_first_partial"
   ],
   "note": "full property refuted by C53_later_refuted (later calls reuse the first builder; code bug); proved for the first populate"
  },
  {
   "property": "C54",
   "status": "partial",
   "theorems": [
    "Recourse.C54_report_refuted",
    "Recourse.C54_counts_partial"
   ],
   "note": "full property refuted by C54_report_refuted (no-recourse count is always 0 and the report raises NameError; code bug); the other counts proved"
  },
  {
   "property": "C55",
   "status": "partial",
   "theorems": [
    "Recourse.C55_accepts",
    "Recourse.C55_cplex",
    "Recourse.C55_pymip_partial",
    "Recourse.C55_fit",
    "Recourse.C55_nodes_refuted",
    "Recourse.C55_zero_refuted",
    "Recourse.C55_rebuild_refuted"
   ],
   "note": "acceptance, CPLEX clipping and fit overrides proved; for Python-MIP None/inf keeps an earlier node limit and 0<x<1 becomes 0 (C55_nodes_refuted, C55_zero_refuted; code bug)"
  },
  {
   "property": "C58",
   "status": "proved",
   "theorems": [
    "Recourse.C58_items"
   ],
   "note": ""
  },
  {
   "property": "C59",
   "status": "proved",
   "theorems": [
    "Recourse.C59_populate"
   ],
   "note": ""
  },
  {
   "property": "C60",
   "status": "partial",
   "theorems": [
    "Recourse.C60_flat",
    "Recourse.C60_latex_refuted"
   ],
   "note": "to_flat_df proved; to_latex raises on an empty flipset (C60_latex_refuted; code bug)"
  },
  {
   "property": "C61",
   "status": "partial",
   "theorems": [
    "Recourse.C61_readback_partial",
    "Recourse.C61_display_refuted"
   ],
   "note": "time and node limits proved when mip_display is never assigned; mip_display refuted (C61_display_refuted; code bug)"
  },
  {
   "property": "C57",
   "status": "partial",
   "theorems": [
    "Recourse.C57_atomic_partial",
    "Recourse.C57_atomic_refuted"
   ],
   "note": "full property refuted by C57_atomic_refuted (a broadcast assignment that fails part-way leaves earlier features changed; code bug); proved: single-element assignments, and exactly which features a failed assignment changes"
  },
  {
   "property": "C62",
   "status": "proved",
   "theorems": [
    "Recourse.C62_step_direction",
    "Recourse.C62_flip_direction",
    "Recourse.C62_actionable_exact",
    "Recourse.C62_actionable_refuted",
    "Recourse.C62_actionable",
    "Recourse.C62_step_size",
    "Recourse.C62_step_type",
    "Recourse.C62_variable_type",
    "Recourse.C62_lb_absolute",
    "Recourse.C62_ub_absolute",
    "Recourse.C62_lb_percentile",
    "Recourse.C62_ub_percentile",
    "Recourse.C62_bounds",
    "Recourse.C62_readonly"
   ],
   "note": ""
  },
  {
   "property": "C56",
   "status": "partial",
   "theorems": [
    "Recourse.C56_percentile_partial",
    "Recourse.C56_refresh_partial",
    "Recourse.C56_setters",
    "Recourse.C56_stable",
    "Recourse.C56_stale_refuted"
   ],
   "note": "full property refuted by C56_stale_refuted (update_grid keeps the cached interpolator; code bug); proved for histories where update_grid precedes the first percentile evaluation or is followed by update_interpolator"
  },
  {
   "property": "C63",
   "status": "partial",
   "theorems": [
    "Recourse.C63_reads",
    "Recourse.C63_unknown",
    "Recourse.C63_missing",
    "Recourse.C63_slice_reads",
    "Recourse.C63_write_back_partial",
    "Recourse.C63_bounds_refuted",
    "Recourse.C63_readonly"
   ],
   "note": "reads proved; writing back refuted for percentile bounds (C63_bounds_refuted: the value read is written as a percentile rank; code bug) and proved for all other attributes"
  },
  {
   "property": "C64",
   "status": "partial",
   "theorems": [
    "Recourse.C64_df",
    "Recourse.C64_latex_partial",
    "Recourse.C64_latex_refuted",
    "Recourse.C64_print",
    "Recourse.C64_slice_refuted"
   ],
   "note": "df and str(A) proved; to_latex refuted for features that may only decrease and for integer/binary types (C64_latex_refuted; operator precedence and comparison of a type with a string), printing slices always raises (C64_slice_refuted; code bugs)"
  },
  {
   "property": "C65",
   "status": "partial",
   "theorems": [
    "Recourse.C65_scale_partial",
    "Recourse.C65_scale_refuted",
    "Recourse.C65_example"
   ],
   "note": "same answers whenever both assignments are accepted; acceptance refuted (C65_scale_refuted: coefficients up to 1e-8 count as zero; code limitation)"
  },
  {
   "property": "C66",
   "status": "proved",
   "theorems": [
    "Recourse.C66_threshold",
    "Recourse.C66_accepts"
   ],
   "note": "proved for a scaled classifier with a more favourable intercept, factor 1 being the plain statement"
  },
  {
   "property": "C67",
   "status": "proved",
   "theorems": [
    "Recourse.C67_cost_type",
    "Recourse.C67_example"
   ],
   "note": "for kernel densities for which percentiles stay under 1, see percentile_below for a sufficient condition"
  },
  {
   "property": "C68",
   "status": "proved",
   "theorems": [
    "Recourse.C68_no_superfluous",
    "Recourse.C68_items",
    "Recourse.C68_example"
   ],
   "note": "fit and both enumeration types; max costs in regular situations as stated"
  },
  {
   "property": "C69",
   "status": "proved",
   "theorems": [
    "Recourse.C69_helps",
    "Recourse.C69_items"
   ],
   "note": "fit and populate, for every sound solver and history"
  },
  {
   "property": "C70",
   "status": "partial",
   "theorems": [
    "Recourse.C70_done_partial",
    "Recourse.C70_done_refuted",
    "Recourse.C70_example"
   ],
   "note": "exact characterisation proved; full property refuted for desired outcome -1 at score 0 (C70_done_refuted; code inconsistency between auditor and builder)"
  },
  {
   "property": "C71",
   "status": "proved",
   "theorems": [
    "Recourse.C71_relax",
    "Recourse.C71_example"
   ],
   "note": "via the certificates C25-C27 of both builders"
  },
  {
   "property": "C72",
   "status": "proved",
   "theorems": [
    "Recourse.C72_read",
    "Recourse.C72_current",
    "Recourse.C72_next"
   ],
   "note": "the values read, the current answer and every later answer"
  },
  {
   "property": "C73",
   "status": "proved",
   "theorems": [
    "Recourse.C73_min_items",
    "Recourse.C73_example",
    "Recourse.C73_harmful"
   ],
   "note": "for total and local costs; C73_harmful shows that the restriction to useful actions is needed"
  },
  {
   "property": "C74",
   "status": "partial",
   "theorems": [
    "Recourse.C74_construct",
    "Recourse.C74_point",
    "Recourse.C74_refused",
    "Recourse.C74_cost_type",
    "Recourse.C74_auditor",
    "Recourse.C74_failing_refuted",
    "Recourse.C74_example"
   ],
   "note": "everything but the last sentence proved; that sentence is false (C74_failing_refuted: failing constructors align or re-align the set)"
  },
  {
   "property": "C75",
   "status": "partial",
   "theorems": [
    "Recourse.C75_unknown_partial",
    "Recourse.C75_unknown_refuted"
   ],
   "note": "no wrong answer: fit raises exactly when recourse exists; the refusal of the name is false (C75_unknown_refuted)"
  },
  {
   "property": "C76",
   "status": "proved",
   "theorems": [
    "Recourse.C76_accepts",
    "Recourse.C76_symmetric",
    "Recourse.C76_example"
   ],
   "note": "acceptance (C76_accepts) and answers (C76_symmetric); mkActionSet_opposite shows that the two new sets differ in the outcome only"
  },
  {
   "property": "C77",
   "status": "partial",
   "theorems": [
    "Recourse.C77_accepts_partial",
    "Recourse.C77_order_partial",
    "Recourse.C77_new",
    "Recourse.C77_limits_refuted",
    "Recourse.C77_example",
    "Recourse.C77_subsets_partial",
    "Recourse.C77_subsets_example"
   ],
   "note": "proved without subset limits (C77_accepts_partial, C77_order_partial; C77_new for sets made from permuted data) and with subset limits that apply at both points (C77_subsets_partial; LimitsApply); with subset limits that do not, it is false (C77_limits_refuted)"
  },
  {
   "property": "C78",
   "status": "partial",
   "theorems": [
    "Recourse.C78_accepts_partial",
    "Recourse.C78_frozen_partial",
    "Recourse.C78_limits_refuted",
    "Recourse.C78_example",
    "Recourse.C78_subsets_partial",
    "Recourse.C78_subsets_example"
   ],
   "note": "proved without subset limits (C78_accepts_partial, C78_frozen_partial) and with subset limits that apply at both points (C78_subsets_partial; LimitsApply); with subset limits that do not, it is false (C78_limits_refuted)"
  },
  {
   "property": "C79",
   "status": "partial",
   "theorems": [
    "Recourse.C79_report_stops",
    "Recourse.C79_size_partial",
    "Recourse.C79_size_exact",
    "Recourse.C79_size_refuted",
    "Recourse.C79_costs_partial"
   ],
   "note": "proved for distinct index labels (C79_size_partial, C79_costs_partial), exact size for all labels (C79_size_exact); false whenever a label repeats (C79_size_refuted), and only the first label is reported (C79_report_stops)"
  },
  {
   "property": "C80",
   "status": "partial",
   "theorems": [
    "Recourse.C80_accepts",
    "Recourse.C80_follows_partial",
    "Recourse.C80_limits",
    "Recourse.C80_grown_refuted",
    "Recourse.C80_example"
   ],
   "note": "acceptance proved (C80_accepts); answers proved when the old item limits admit what a new builder admits (C80_follows_partial, C80_limits); false when features became actionable after construction (C80_grown_refuted)"
  },
  {
   "property": "C81",
   "status": "partial",
   "theorems": [
    "Recourse.C81_builder",
    "Recourse.C81_auditor",
    "Recourse.C81_flipset",
    "Recourse.C81_later_partial",
    "Recourse.C81_later_refuted",
    "Recourse.C81_example"
   ],
   "note": "unchanged looks proved for builders, auditors and flipsets (C81_builder, C81_auditor, C81_flipset); later attribute assignments proved (C81_later_partial); false for update_grid (C81_later_refuted)"
  },
  {
   "property": "C82",
   "status": "proved",
   "theorems": [
    "Recourse.C82_row_order"
   ],
   "note": ""
  },
  {
   "property": "C83",
   "status": "partial",
   "theorems": [
    "Recourse.C83_recourse",
    "Recourse.C83_feasible_partial",
    "Recourse.C83_new",
    "Recourse.C83_align",
    "Recourse.C83_costs_partial",
    "Recourse.C83_percentiles",
    "Recourse.C83_integers_refuted",
    "Recourse.C83_tolerance_refuted",
    "Recourse.C83_example",
    "Recourse.C83_scale_costs_refuted",
    "Recourse.C83_binary_refuted"
   ],
   "note": "sets, recourse, feasibility proved for real-valued columns, and for integer columns shifted by integers, with relative steps and regular situations (C83_new, C83_recourse, C83_feasible_partial); costs when the density estimate follows the data (C83_percentiles, C83_costs_partial); false for integer columns under scaling, for binary columns, below the tolerance, and for costs under scaling (C83_integers_refuted, C83_binary_refuted, C83_tolerance_refuted, C83_scale_costs_refuted)"
  },
  {
   "property": "C84",
   "status": "proved",
   "theorems": [
    "Recourse.C84_agree",
    "Recourse.C84_example"
   ],
   "note": ""
  },
  {
   "property": "C85",
   "status": "proved",
   "theorems": [
    "Recourse.C85_item",
    "Recourse.C85_order",
    "Recourse.C85_new_builder",
    "Recourse.C85_old_builder",
    "Recourse.C85_names_refuted",
    "Recourse.C85_aligned_refuted",
    "Recourse.C85_example"
   ],
   "note": "assignment, order, new and old builders proved for all sets and elements (C85_item, C85_order, C85_new_builder, C85_old_builder); the name under which a feature is filed need not be its name (C85_names_refuted); an element aligned with another classifier is not noticed (C85_aligned_refuted)"
  },
  {
   "property": "C86",
   "status": "proved",
   "theorems": [
    "Recourse.C86_feature_check",
    "Recourse.C86_feature_unchecked",
    "Recourse.C86_construct",
    "Recourse.C86_constructed",
    "Recourse.C86_custom",
    "Recourse.C86_bounds",
    "Recourse.C86_flags",
    "Recourse.C86_flags_read",
    "Recourse.C86_repr",
    "Recourse.C86_invariant_refuted",
    "Recourse.C86_example",
    "Recourse.C86_builder_check",
    "Recourse.C86_builder",
    "Recourse.C86_builder_flags",
    "Recourse.C86_builder_refuted"
   ],
   "note": "exact description of the constructor (C86_construct, C86_constructed), of custom and default bounds (C86_custom, C86_bounds), of the flags (C86_flags, C86_flags_read, C86_repr, C86_builder) and of the internal checks (C86_feature_check, C86_feature_unchecked, C86_builder_check); an assignment to one feature breaks the invariant checked by the set (C86_invariant_refuted), and illegal flags of a builder are refused only after the set was aligned (C86_builder_refuted)"
  },
  {
   "property": "C87",
   "status": "proved",
   "theorems": [
    "Recourse.C87_check",
    "Recourse.C87_pass",
    "Recourse.C87_fresh",
    "Recourse.C87_example",
    "Recourse.C87_raises_refuted",
    "Recourse.C87_warns_refuted"
   ],
   "note": "exact characterisation (C87_check), silent pass for rejected persons (C87_pass, C87_fresh); the asides in the statement are C87_raises_refuted and C87_warns_refuted"
  },
  {
   "property": "C88",
   "status": "proved",
   "theorems": [
    "Recourse.C88_accepts",
    "Recourse.C88_exact",
    "Recourse.C88_binary",
    "Recourse.C88_fresh",
    "Recourse.C88_real"
   ],
   "note": "exact when grids and percentiles are in order, for any alignment and any subset limits (C88_exact); in regular situations (C88_accepts), for new sets (C88_fresh), for data of zeros and ones (C88_binary) and with the real logarithm and density (C88_real)"
  },
  {
   "property": "C89",
   "status": "proved",
   "theorems": [
    "Recourse.C89_ends",
    "Recourse.C89_all_or_none",
    "Recourse.C89_binary",
    "Recourse.C89_audit"
   ],
   "note": "C89_ends, C89_all_or_none, C89_binary, C89_audit"
  },
  {
   "property": "C90",
   "status": "proved",
   "theorems": [
    "Recourse.C90_real",
    "Recourse.C90_bandwidth",
    "Recourse.C90_constant_refuted",
    "Recourse.C90_pipeline",
    "Recourse.C90_audit"
   ],
   "note": "C90_real, C90_pipeline, C90_audit; the aside in the statement is C90_constant_refuted"
  },
  {
   "property": "C91",
   "status": "proved",
   "theorems": [
    "Recourse.C91_names",
    "Recourse.C91_program",
    "Recourse.C91_constraints"
   ],
   "note": "C91_names (names as strings), C91_program (all times), C91_constraints (new programs)"
  },
  {
   "property": "C92",
   "status": "proved",
   "theorems": [
    "Recourse.C92_group",
    "Recourse.C92_applies",
    "Recourse.C92_accepts",
    "Recourse.C92_categories",
    "Recourse.C92_test"
   ],
   "note": "C92_group (any history), C92_applies and C92_accepts (indicators in the first columns), C92_categories and C92_test (one group)"
  },
  {
   "property": "C93",
   "status": "proved",
   "theorems": [
    "Recourse.C93_enumeration",
    "Recourse.C93_flipsets",
    "Recourse.C93_example"
   ],
   "note": "C93_enumeration (builders), C93_flipsets; C93_example"
  },
  {
   "property": "C94",
   "status": "partial",
   "theorems": [
    "Recourse.C94_first_partial",
    "Recourse.C94_mutex_refuted"
   ],
   "note": "C94_first_partial: the first item; C94_mutex_refuted: two exact solvers, one item against two"
  },
  {
   "property": "C95",
   "status": "partial",
   "theorems": [
    "Recourse.C95_audits_partial",
    "Recourse.C95_cost_refuted",
    "Recourse.C95_example"
   ],
   "note": "C95_audits_partial: same success, same rows, costs within every cost step, equal when costs are spaced; C95_cost_refuted: a tie between a larger maximum and a larger sum; C95_example"
  },
  {
   "property": "C96",
   "status": "proved",
   "theorems": [
    "Recourse.C96_initialization",
    "Recourse.C96_y_constructor",
    "Recourse.C96_y_setter",
    "Recourse.C96_align",
    "Recourse.C96_subset_constraints",
    "Recourse.C96_absolute_bound",
    "Recourse.C96_bounds_with_values",
    "Recourse.C96_fit_without_point",
    "Recourse.C96_fit_cost",
    "Recourse.C96_empty_fit",
    "Recourse.C96_distinct_subsets",
    "Recourse.C96_mutually_exclusive",
    "Recourse.C96_auditor",
    "Recourse.C96_example"
   ],
   "note": "one theorem per test function, following its statements; distinct_subsets on the action vectors themselves (the test truncates them to integers first)"
  },
  {
   "property": "C97",
   "status": "partial",
   "theorems": [
    "Recourse.C97_set",
    "Recourse.C97_accepts",
    "Recourse.C97_ignored",
    "Recourse.C97_twice",
    "Recourse.C97_defaults",
    "Recourse.C97_overridden",
    "Recourse.C97_lift_refuted",
    "Recourse.C97_valid"
   ],
   "note": "C97_set, C97_accepts, C97_ignored, C97_twice, C97_valid, C97_defaults; refuted for lifting a limit (C97_lift_refuted) and for limits during fit (C97_overridden)"
  },
  {
   "property": "C98",
   "status": "partial",
   "theorems": [
    "Recourse.C98_preprocessing",
    "Recourse.C98_preprocessing_refuted",
    "Recourse.C98_cutoff",
    "Recourse.C98_copy",
    "Recourse.C98_get_refuted",
    "Recourse.C98_muted",
    "Recourse.C98_display_refuted",
    "Recourse.C98_stats",
    "Recourse.C98_stats_raises"
   ],
   "note": "C98_preprocessing, C98_cutoff, C98_copy, C98_muted, C98_stats; refuted: restoring bound_strengthening, reading the parameters, switching the display on again"
  },
  {
   "property": "C99",
   "status": "partial",
   "theorems": [
    "Recourse.C99_add",
    "Recourse.C99_single_refuted",
    "Recourse.C99_array_refuted",
    "Recourse.C99_lengths",
    "Recourse.C99_ignored_refuted"
   ],
   "note": "C99_add: single values, full lists, arrays of floats; C99_single_refuted: lists with one value raise TypeError; C99_array_refuted: arrays of integers fail an assertion; C99_lengths: wrong lengths raise; C99_ignored_refuted: for one name a longer list is accepted and cut"
  },
  {
   "property": "C100",
   "status": "partial",
   "theorems": [
    "Recourse.C100_local",
    "Recourse.C100_raises",
    "Recourse.C100_runs",
    "Recourse.C100_corrected",
    "Recourse.C100_recourse",
    "Recourse.C100_readme_refuted",
    "Recourse.C100_align_refuted",
    "Recourse.C100_rebuild",
    "Recourse.C100_bounds_refuted"
   ],
   "note": "C100_local, C100_runs: all scripts; C100_corrected, C100_recourse, C100_rebuild: the README with actionable for mutable; refuted as written (C100_readme_refuted, C100_align_refuted, C100_bounds_refuted)"
  },
  {
   "property": "C101",
   "status": "partial",
   "theorems": [
    "Recourse.C101_html",
    "Recourse.C101_latex_partial",
    "Recourse.C101_latex_refuted"
   ],
   "note": "C101_html; C101_latex_partial: names that do not occur in other wrapped names; refuted in general (C101_latex_refuted)"
  },
  {
   "property": "C102",
   "status": "partial",
   "theorems": [
    "Recourse.C102_enumeration",
    "Recourse.C102_ends",
    "Recourse.C102_repeat_refuted",
    "Recourse.C102_noise_refuted",
    "Recourse.C102_tolerance",
    "Recourse.C102_items",
    "Recourse.C102_rounded",
    "Recourse.C102_exact",
    "Recourse.C102_zero",
    "Recourse.C102_cost",
    "Recourse.C102_max_cost"
   ],
   "note": "C102_tolerance, C102_items, C102_rounded, C102_cost, C102_max_cost for all tolerances; C102_enumeration and C102_ends for integrality tolerances up to 1e-8; refuted above that (C102_repeat_refuted), and for the vector of costs and the size of the answer itself (C102_noise_refuted); C102_exact, C102_zero: with tolerances 0 these are the statements for exact solvers"
  },
  {
   "property": "C103",
   "status": "partial",
   "theorems": [
    "Recourse.C103_exact",
    "Recourse.C103_grid",
    "Recourse.C103_offered",
    "Recourse.C103_integers",
    "Recourse.C103_bounds_refuted"
   ],
   "note": "C103_exact, C103_grid, C103_offered, C103_integers for every rounding (Scaled: relative error small against the number of steps); the upper bound itself is refuted for doubles (C103_bounds_refuted); doubles are IEEE doubles without overflow and subnormal numbers"
  },
  {
   "property": "C104",
   "status": "partial",
   "theorems": [
    "Recourse.C104_error",
    "Recourse.C104_same",
    "Recourse.C104_margin",
    "Recourse.C104_audit",
    "Recourse.C104_integers",
    "Recourse.C104_exact",
    "Recourse.C104_order_refuted"
   ],
   "note": "C104_error, C104_margin, C104_audit, C104_integers, C104_same, C104_exact for every rounding and order of summation; agreement of auditor and builder on every point is refuted for doubles (C104_order_refuted)"
  },
  {
   "property": "C105",
   "status": "proved",
   "theorems": [
    "Recourse.C105_exact",
    "Recourse.C105_fit",
    "Recourse.C105_limits",
    "Recourse.C105_items",
    "Recourse.C105_found",
    "Recourse.C105_found_example",
    "Recourse.C105_grids",
    "Recourse.C105_example",
    "Recourse.C105_values_refuted"
   ],
   "note": "C105_fit, C105_items, C105_limits (the close action respects subset limits, when rounding does not hide which listed features become 0), C105_found (converse: recourse with a margin of the rounding errors is found), C105_grids, C105_exact; that reported actions lead to exact grid values is refuted (C105_values_refuted)"
  },
  {
   "property": "C106",
   "status": "proved",
   "theorems": [
    "Recourse.C106_index",
    "Recourse.C106_positions",
    "Recourse.C106_answers",
    "Recourse.C106_agree",
    "Recourse.C106_slots_example",
    "Recourse.C106_index_example"
   ],
   "note": "C106_positions (every answer), C106_answers (exact and cheapest), C106_index (IndexError), C106_agree (agrees with C35 when the limits apply)"
  },
  {
   "property": "C107",
   "status": "proved",
   "theorems": [
    "Recourse.C107_apart",
    "Recourse.C107_next",
    "Recourse.C107_stop",
    "Recourse.C107_example"
   ],
   "note": "C107_apart (every sound solver), C107_next (each item is the best of what is left), C107_stop (nothing is left at the end)"
  },
  {
   "property": "C108",
   "status": "proved",
   "theorems": [
    "Recourse.C108_exact",
    "Recourse.C108_rows",
    "Recourse.C108_feasible",
    "Recourse.C108_infeasible",
    "Recourse.C108_succeeds",
    "Recourse.C108_example"
   ],
   "note": "C108_rows (shape), C108_feasible, C108_infeasible (both directions with explicit margins), C108_succeeds, C108_exact (no rounding: the exact audit), C108_example"
  },
  {
   "property": "C109",
   "status": "proved",
   "theorems": [
    "Recourse.C109_table",
    "Recourse.C109_items",
    "Recourse.C109_exact",
    "Recourse.C109_populate",
    "Recourse.C109_found",
    "Recourse.C109_example"
   ],
   "note": "C109_table (any history), C109_items (NearAllowed with explicit errors), C109_populate (success and termination), C109_found (completeness with a margin), C109_exact (no rounding: the exact populate), C109_example (doubles)"
  },
  {
   "property": "C110",
   "status": "proved",
   "theorems": [
    "Recourse.C110_table",
    "Recourse.C110_items",
    "Recourse.C110_flat",
    "Recourse.C110_html",
    "Recourse.C110_stable",
    "Recourse.C110_example"
   ],
   "note": "C110_table, C110_items, C110_flat, C110_html for every algorithm that sorts; C110_stable: with a stable one these are C49, C50, C60 (and unstacking and merging columns is the same as reading rows); C110_example: an algorithm that is not stable"
  },
  {
   "property": "C111",
   "status": "proved",
   "theorems": [
    "Recourse.C111_histories",
    "Recourse.C111_new",
    "Recourse.C111_example",
    "Recourse.C111_realign_refuted",
    "Recourse.C111_interleaved"
   ],
   "note": "C111_histories: part 1; C111_interleaved: part 2; C111_new: every builder and auditor that was just made meets its hypotheses; C111_example: a program with two builders, an auditor and a flipset; C111_realign_refuted: the condition on new auditors is needed - an auditor for another classifier makes the builder raise on a point it accepted before"
  },
  {
   "property": "C112",
   "status": "partial",
   "theorems": [
    "Recourse.C112_table_partial",
    "Recourse.C112_grid",
    "Recourse.C112_exact",
    "Recourse.C112_error",
    "Recourse.C112_below_one",
    "Recourse.C112_costs_partial",
    "Recourse.C112_offered_partial",
    "Recourse.C112_value",
    "Recourse.C112_order_partial",
    "Recourse.C112_example",
    "Recourse.C112_one_refuted",
    "Recourse.C112_gap_refuted",
    "Recourse.C112_between_refuted",
    "Recourse.C112_integer_refuted"
   ],
   "note": "(1) is proved (C112_error), also for the percentile of any value inside or outside the grid (C112_value); C112_exact: without rounding these are the percentiles of all other properties. (2)-(4) are proved in their weak form, for grid values of float features: scores never decrease, are above 0 and at most 1 (C112_table_partial), and below 1 unless the densities add up to so much that the buffer is lost (C112_below_one); grid values get exactly the table score (C112_grid); costs are never negative and never decrease with the distance (C112_costs_partial), also in the lists given to the solver (C112_offered_partial). The strict form is false in doubles: the largest score can be 1 (C112_one_refuted), neighbouring scores can be equal, and the move is then not offered (C112_gap_refuted). For values between grid values and for integer features even the weak form is false (C112_between_refuted, C112_integer_refuted). C112_order_partial bounds how far the order can be violated: by a factor that depends only on the number of grid values"
  },
  {
   "property": "C113",
   "status": "proved",
   "theorems": [
    "Recourse.C113_frozen",
    "Recourse.C113_rows",
    "Recourse.C113_histories",
    "Recourse.C113_items",
    "Recourse.C113_replaced",
    "Recourse.C113_example",
    "Recourse.C113_protected_refuted"
   ],
   "note": "C113_rows and C113_frozen: rows of handed-out tables; C113_replaced: changes to replaced tables do not matter; C113_items: the list only grows; C113_histories: link to the histories of the other properties. C113_protected_refuted shows what is not promised: changes of the objects in use change the flipset. Rows are replaced as a whole: the lists inside rows are not objects of their own"
  },
  {
   "property": "C114",
   "status": "proved",
   "theorems": [
    "Recourse.C114_values",
    "Recourse.C114_untouched",
    "Recourse.C114_own",
    "Recourse.C114_getters",
    "Recourse.C114_example",
    "Recourse.C114_in_use_refuted"
   ],
   "note": "C114_values: programs that respect arrays in use get the replies of a program that passes values (C111's sessions); C114_own: programs that write to their own arrays only respect them; C114_untouched: calls never write to an array. C114_in_use_refuted shows that the condition is needed. Matrices are lists of rows, and arrays inside tables, items and grids are not in this model (C113)"
  },
  {
   "property": "C115",
   "status": "proved",
   "theorems": [
    "Recourse.C115_prefix",
    "Recourse.C115_steps",
    "Recourse.C115_flipset",
    "Recourse.C115_example"
   ],
   "note": "C115_prefix: one list for all totals; C115_steps: builders; C115_flipset: flipsets, with the stable sort of the model (rows that compare equal keep their order; for other sorting algorithms the tables agree up to the order of ties, C110)"
  },
  {
   "property": "C116",
   "status": "proved",
   "theorems": [
    "Recourse.C116_cost_types",
    "Recourse.C116_example"
   ],
   "note": "C116_cost_types"
  },
  {
   "property": "C117",
   "status": "proved",
   "theorems": [
    "Recourse.C117_rest",
    "Recourse.C117_rest_max",
    "Recourse.C117_example"
   ],
   "note": "C117_rest: total and local, bound and exact value; C117_rest_max: the bound for max"
  },
  {
   "property": "C118",
   "status": "proved",
   "theorems": [
    "Recourse.C118_percentile",
    "Recourse.C118_move",
    "Recourse.C118_answer",
    "Recourse.C118_audit",
    "Recourse.C118_reached",
    "Recourse.C118_example"
   ],
   "note": "C118_percentile, C118_move, C118_answer, C118_audit; C118_reached: the bounds are attained"
  },
  {
   "property": "C119",
   "status": "proved",
   "theorems": [
    "Recourse.C119_accepts",
    "Recourse.C119_better",
    "Recourse.C119_alike",
    "Recourse.C119_example",
    "Recourse.C119_audit_example",
    "Recourse.C119_max",
    "Recourse.C119_audit",
    "Recourse.C119_audit_alike"
   ],
   "note": "C119_accepts, C119_better, C119_alike, C119_max, C119_audit, C119_audit_alike"
  },
  {
   "property": "C120",
   "status": "proved",
   "theorems": [
    "Recourse.C120_alike",
    "Recourse.C120_audit",
    "Recourse.C120_example",
    "Recourse.C120_flipset"
   ],
   "note": "C120_alike; C120_flipset, C120_audit"
  },
  {
   "property": "C121",
   "status": "proved",
   "theorems": [
    "Recourse.C121_forgets",
    "Recourse.C121_current",
    "Recourse.C121_as_new",
    "Recourse.C121_example"
   ],
   "note": "C121_forgets, C121_current, C121_as_new; C121_example"
  },
  {
   "property": "C122",
   "status": "proved",
   "theorems": [
    "Recourse.C122_commute",
    "Recourse.C122_steps",
    "Recourse.C122_last",
    "Recourse.C122_bounds",
    "Recourse.C122_features",
    "Recourse.C122_order_matters",
    "Recourse.C122_example"
   ],
   "note": "C122_commute, C122_steps, C122_bounds, C122_last, C122_features; C122_order_matters shows where the order matters"
  }
 ]
}