
## Defects of the code found while modelling

Each is visible in the model; where a property is affected its refutation is named.

1. The grid may overshoot the upper bound by less than one step (C02_within_bounds_refuted).
2. Assigning bounds, step size or step type does not rebuild the grid (C03_setters_refuted).
3. A non-integral current value is truncated when inserted into an integer grid, so "no change" is missing (C04_noop_refuted).
4. A constant non-binary column with relative steps makes construction fail (step 0).
5. `y_desired = 0` on a set with `y_desired = -1` reverses all flip directions (C13).
6. A one-element list is broadcast as a list, not as its element (C14_broadcast_refuted).
7. Boolean lists as indices are read as integers (C15).
8. The README's `.mutable = False` sets an unrelated attribute (C16_mutable_refuted).
9. Automatic constraint ids may collide with user-chosen ones (C18).
10. Subset limits use column indices as positions in the list of usable features (C35_subset_refuted, C35_raises_refuted).
11. The score constraint is not strict: the new score may be exactly 0 (C23_flip_refuted).
12. For cost type `max` the tie-break weight is not small enough, the maximum is not minimal (C27_max_refuted).
13. An unfinished solver run is reported as "no recourse exists" (C29_limits_refuted, C29_incumbent_refuted).
14. The builder keeps the alignment of another classifier (C31).
15. `set_mip_item_limits` acts on part of the program only (C32).
16. A failing assignment of `x` stores the new point but keeps the old program (C34_failed_refuted).
17. With nothing to change, cost types `total`/`local` raise `KeyError` (C36_empty_refuted).
18. CPLEX `distinct_subsets` cuts on indicators of setting features to zero (C43_cpx_refuted).
19. `fit` after `populate` answers for the cut program (C42).
20. `audit` raises `KeyError` when nobody is denied (C46_approved_refuted).
21. `audit(y_desired)` is independent of `action_set.y_desired` (C47_undesired_refuted).
22. The `flipped` column compares a sign with a raw score (C51_flipped_refuted).
23. Later `Flipset.populate` calls ignore `cost_type` (C53_later_refuted).
24. The audit report always counts 0 people without recourse and raises `NameError` (C54_report_refuted).
25. Percentiles are not monotone across the ends of the grid (C08_percentile_refuted).
26. Coefficients up to 1e-8, or constrained features with coefficient 0, raise `AssertionError`.
27. Actions with nonpositive percentile cost are dropped from the program.
28. `update_grid` keeps the cached interpolator (C56_stale_refuted).
29. Python-MIP: `node_limit = None` keeps an earlier limit, limits below 1 become 0 (C55_nodes_refuted, C55_zero_refuted).
30. `mip_display`: the getter always raises, the setter overwrites the node limit (C61_display_refuted).
31. `Flipset.to_latex` raises on an empty flipset (C60_latex_refuted).
32. A flipset action of the wrong length raises `AttributeError` instead of being rejected cleanly.
33. A failing broadcast assignment is not atomic (C57_atomic_refuted).
34. Constrained features with a current value strictly inside their offered values raise `AssertionError`.
35. `set_mip_item_limits(0, k)` after a limit of at least 1 admits the empty action until `x` is assigned again.
36. `Flipset.sort(inplace = False)` switches off sorting for later calls (C50).
37. Slices naming a feature twice cannot be assigned a scalar (C14_repeated_refuted).
38. The `step_type` setter does not recheck that relative step sizes are at most 1.
39. `A.update_grid` on a set is a list of methods, not callable.
40. `str(A[...])` always raises (C64_slice_refuted).
41. `to_latex` of a set describes "only decreases" as "only increases" and every type as real (C64_latex_refuted).
42. `A.lb = A.lb` moves percentile bounds (C63_bounds_refuted).
43. Multiplying a classifier by a small positive number can make the same point be rejected: coefficients up to `1e-8`
    count as zero (C65_scale_refuted).
44. For the desired outcome -1, a person who carried out a recommended action and reached score 0 is audited again and may be
    reported as having no recourse (C70_done_refuted).
45. `set_mip_item_limits(k, m)` after `builder.min_items = k` does nothing: the program keeps its old limits
    (C32_attribute_refuted).
46. `set_mip_item_limits(-1, k)` raises `AssertionError` after having changed the program: `fit` then answers "change
    nothing at cost 0" to a denied person (C32_rejected_refuted).
47. With `min_items = k`, recourse that needs a change in a harmful direction to reach k changes is not found
    (C73_harmful).
48. A constructor that raises has already aligned the action set; an auditor that refuses its solver has re-aligned it
    (C74_failing_refuted).
49. A misspelt `mip_cost_type` is accepted, and `fit` raises `AttributeError` exactly when there is recourse
    (C75_unknown_refuted).
50. With subset limits the order of the columns matters: the same point is accepted in one order and raises `IndexError`
    in another, also because of a feature with coefficient 0 (C77_limits_refuted, C78_limits_refuted).
51. The audit report counts a person whose index label occurs k times k*k times (C79_size_refuted); with a column called
    `feasible`, `cost` or `y` in X it raises `KeyError` (C79_report_stops).
52. A feature made actionable after a builder was made is never used together with the others beyond the old `max_items`:
    recourse is missed, and `max_items` cannot be raised (C80_grown_refuted).
53. `A["a"].ub = 10; A["a"].update_grid()` on a set that was used before keeps outdated percentiles: the next builder raises
    `AssertionError` for points it accepts on a fresh set (C81_later_refuted).
54. Integer columns: recourse depends on the units, because percentile bounds are rounded outwards to integers
    (C83_integers_refuted).
55. Columns with very small numbers: all changes within 1e-8 count as no change, and assigning a point raises `ValueError`
    (C83_tolerance_refuted).
56. Reported costs depend on the units: the buffer 1e-6 is added to sums of densities, which are not normalised
    (C83_scale_costs_refuted).
57. `A[name] = e` does not compare `e.name` with `name`: `A["a"]` can be an element called `b`, and builders then raise `KeyError` (C85_names_refuted).
58. `A[name] = e` with an element aligned with another classifier leaves the set "aligned": new builders do not realign it, and
    recourse that exists is not found (C85_aligned_refuted).
59. `A[name] = e` with a new element makes existing builders raise `AssertionError` for every point until a new builder or
    `set_alignment` aligns the set (C85_old_builder, C85_example).
60. `repr(A)` raises `TypeError` when `print_flag` is off: `__repr__` returns `None` (C86_repr).
61. A custom bound for a misspelt name is ignored without a message (C86_custom); `names` is ignored for data frames.
62. `_check_rep` of a set (all features aligned, or none) runs only in the constructor; `A["a"].flip_direction = 1` breaks
    what it checks (C86_invariant_refuted).
63. `RecourseBuilder(..., print_flag = 1)` raises, but has aligned the action set (C86_builder_refuted).
64. `_check_mip_solution` is called nowhere, and would raise or warn on correct answers (C87_raises_refuted,
    C87_warns_refuted): its message "near-zero score" is issued exactly when the score is *not* near zero.
65. A column that is 0 (or 1) for everybody is accepted by `ActionSet`, but if the classifier uses it every assignment
    `b.x = x` raises `LinAlgError` from scipy (C90_constant_refuted).
66. `populate(enumeration_type = 'mutually_exclusive')` is greedy: depending on which of several equally good solutions the
    solver returns first it finds one item or two (C94_mutex_refuted), so CPLEX and Python-MIP, or two versions of
    one solver, may give flipsets of different lengths.
67. The costs in an audit depend on which of several equally good solutions the solver returns, because the objective for cost type
    `max` trades the largest cost against a multiple of the sum (C95_cost_refuted): `test_compare_auditors` can fail for
    two correct solvers.
68. `A[name].actionable = [False]` makes the feature actionable: the check accepts a one-element list, `bool([False])` is
    `True` (C62_actionable_refuted).
69. Time and node limits in `cplex_parameters` are never in force while solving: `fit` and `populate` overwrite them, with
    the largest possible value if no limit is passed (C97_overridden).
70. `set_mip_parameters` cannot lift a limit: entries at or above the defaults are skipped (C97_lift_refuted).
71. `objdifference`, `scale_parameters`, `poolrelgap` and `nodefilesize` are documented parameters without any effect (C97_ignored).
72. `display_cplex_progress = None` does not silence the solver: `is (None or False)` is `is False` (C97_set).
73. `get_cpx_parameters` raises `AttributeError` for every solver object (C98_get_refuted).
74. Once a solver object has been silenced the display cannot be turned on again (C98_muted, C98_display_refuted): after one `fit` with
    the display off, `display_flag = True` shows nothing.
75. `toggle_cpx_preprocessing` off and on replaces the user's `bound_strengthening` by the default of CPLEX
    (C98_preprocessing_refuted).
76. `add_variable_cpx` with a one-element list for several variables raises `TypeError`, although its own error message asks for
    length 1 or n (C99_single_refuted); an array of integers fails an assertion where a list of integers is accepted (C99_array_refuted); bounds given for variables that are all binary are ignored (C99_add).
77. `b.mip_time_limit = 5` lasts until the next point: `b.x = x` builds a program with default limits, while `b.mip_time_limit` still
    reads 5 (C55_rebuild_refuted).
78. The usage script of the README does not run: `A[[...]].mutable = False` raises `AssertionError` on every set
    (C100_readme_refuted), and `A.align` does not exist (C100_align_refuted); with both lines corrected the bounds it sets for
    `EducationLevel` and `TotalMonthsOverdue` are still not in force (C100_bounds_refuted) until `update_grid()` is called
    (C100_rebuild).
79. `Flipset.to_latex` wraps names by text replacement, one variable after the other: with variables `Age` and `AgeGroup` the second
    is shown as `\textit{Age}Group`, and a variable called `it` destroys the formatter of the others (C101_latex_refuted).
80. `remove_all_features` and `remove_feature_combination` read the indicators with `np.isclose(value, 0.0)` (1e-8), the default integrality
    tolerance of Python-MIP is 1e-6 (the CPLEX builder sets it to 0): an indicator reported as 1e-7 is taken for "not changed", the item is not removed, and
    `populate` returns it again and again; without a bound it does not end (C102_repeat_refuted).
81. `solution_info` finds the costs by the position of the non-zero indicators: one indicator of 1e-9 shifts the costs of the following
    features, so that a feature is shown with the cost of a move of another one (C102_noise_refuted).
82. The number of changed features of an answer is counted by `a != 0`: solver noise of 1e-9 counts as a change, and the
    answer exceeds `max_items` (C102_noise_refuted).
83. `update_grid` asks `np.arange` for values below `stop + step`; in doubles the number of values may come out one too large: with bounds
    0 and 21 and the default step 0.01 the grid has 102 values and ends at 21.21, so that actions beyond the upper bound are offered
    (C103_bounds_refuted).  In experiments this happens for about one in six pairs of bounds.
84. The auditor computes `X.dot(w)` and compares with `-intercept`; the builder computes `w.dot(x) + intercept` for the same row.  The two may
    add in different orders: with weights 0.1, 0.2, 0.3 and intercept -0.6 the row (1, 1, 1) is selected by the auditor, but the builder does not
    predict -1 for it (C104_order_refuted).
85. Actions are reported as differences `v - x`; in doubles `x + (v - x)` need not be `v`: from 0.03 the action to the grid value 0.29 leads to
    0.29000000000000004 (C105_values_refuted).  This happens for about one in six pairs of values on the default grid between 0 and 1.
86. Whether a two-valued column can be used depends on its codes: with 0 and 1 both values are offered; with 1 and 2 the bounds are percentiles, and if
    fewer than 1% of the people have the value 2 the constructor of the action set raises (the grid has step 0; C83_binary_refuted).
87. The auditor's constructor re-aligns the action set it is given, also if the set is in use: a builder for another classifier and the same set then
    raises for points it accepted before (C111_realign_refuted).  All other uses of shared sets are harmless (C111_interleaved).
88. In doubles a grid value at which few training values lie gets the same percentile as its neighbour; the move there then costs 0, the builder takes
    it for a numerical issue (builder.py:369-374) and silently does not offer it (C112_gap_refuted).
89. In doubles the percentile of the largest grid value is exactly 1 if the densities over the grid add up to more than about 10^10 (features measured
    on a very small scale); the local cost of moving there is then infinite (C112_one_refuted; C112_below_one gives a bound that excludes it).
90. `interp1d` interpolates grids of integers with its own code, which does not reproduce table scores at grid values: in doubles a larger
    grid value can have a smaller percentile (C112_integer_refuted), with the effect of finding 88 (or a negative cost).
91. `df`, `view()` and `solutions_info` hand out the flipset's own objects: a program that drops rows from the data frame it got empties `to_flat_df()`, and one
    that changes the list removes items from the flipset while the table keeps them (C113_protected_refuted).  And `to_flat_df`, `to_html` and
    `to_latex` reorder a data frame that the program got earlier.
92. `builder.coefficients`, `auditor.coefficients` and `flipset.x` return the arrays that the objects work with (builder.py:186-187, auditor.py:36,
    flipset.py:74-78), `builder.x` and the values of a feature are copies.  Who writes to `auditor.coefficients` gets audits that decide with one
    classifier who is denied and search actions for another (C114_in_use_refuted).
