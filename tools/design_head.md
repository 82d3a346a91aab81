# DESIGN

Formal model of ustunb/actionable-recourse (package `recourse`, source in /repo) in Lean 4, in `/verif/lean`.

## Layout

* `Verif/Py.lean`, `Verif/Num.lean`: Python values, exceptions as values, the numpy primitives the code uses.
* `Verif/Model/*.lean`: the code, function by function; every definition cites file and lines and states its
  simplifications.
* `Verif/Spec.lean`: histories (reachable states of features, action sets, builders, auditors, flipsets) and small
  specifications that do not mention the model's algorithms (permitted change, cost of a change, recourse, ...).
  Property files add further local specifications (`IsPercentile`, `DescribesGrid`, `RowOf`, ...).
* `Verif/Lemmas/*.lean`: helper lemmas.  `Verif/Props/*.lean`: the property theorems `Cxx_...`, each with a concrete
  example that meets its hypotheses.
* `tools/manifest.py` (+ `tools/status.json`) regenerates `MANIFEST.json`; `tools/mutate.py` and
  `seeded/mutants.json` are the mutation tests, `seeded/LOG.jsonl` their results.

Naming: `Cxx_..._partial` proves part of property Cxx; `Cxx_..._refuted` proves that the full property is false of the
code, by a concrete reachable counterexample (or for all states).  Where the code violates a property, the property is
kept in its intended form, the refutation is proved, and the strongest true version found is proved as `_partial`.

## Trusted base

1. **Lean's kernel** (4.33.0).  `decide +kernel` (concrete examples and refutations only) is evaluated by the kernel;
   no `native_decide`, no `bv_decide`, no compiled code.
2. **Axioms**: every theorem depends on at most `propext`, `Classical.choice` and `Quot.sound` (Mathlib's standard
   axioms; check with `#print axioms`).  No axiom is added; no proof is left open.
3. **The model is a faithful reading of the code.**  It was written by hand from the source text; nothing was executed
   (the sandbox has none of the project's dependencies).

### What is modelled

| file | modelled |
| --- | --- |
| action_set.py | `_ActionElement`, `_BoundElement`: constructors, all property getters and setters, `update_grid`, `interpolator`, `update_interpolator`, `percentile`, `feasible_values`; `ActionSet`: constructor, `__getitem__`, `__getattribute__`, `__setattr__`, `y_desired`, `set_alignment`, `alignment_known`, `feasible_grid`, `add_constraint`, `remove_constraint`, `df`, `to_latex`, `__str__`; `_ActionConstraints`; `_ActionSlice` reads and assignments; `_expand_values`, `_determine_variable_type`, `_check_variable_names`, `tabulate_actions`, `texify_action_set` |
| builder.py | constructor, `x` setter, `score`, `prediction`, `_get_mip_build_info`, `_check_mip_build_info`, `_check_mip_solution`, `_check_rep`, `build_mip` of both back ends (variables, bounds, linear constraints, SOS sets, objective), `fit`, `populate`, `solution_info` of both, `remove_all_features`, `remove_feature_combination`, `set_mip_item_limits`, `set_mip_min_items`/`max_items`, time/node limits and display settings |
| auditor.py | constructor, `audit` |
| flipset.py | constructor, `score`, `predict`, `yhat`, `populate`, `_add`, `_validate_item`, `_validate_action`, `_item_to_df_row`, `sort`, `df`, `to_flat_df`, rows and names of `to_latex`, lines of `to_html` |
| helper_functions.py | `parse_classifier_args`, `is_sklearn_linear_classifier`, the counting part of `print_recourse_audit_report` |
| cplex_helper.py | `DEFAULT_CPLEX_PARAMETERS`, `set_cpx_parameters`, `get_cpx_parameters`, `set_cpx_display_options`, `set_cpx_time_limit`, `set_cpx_node_limit`, `toggle_cpx_preprocessing`, `set_mip_cutoff_values`, `copy_cplex`, `add_variable_cpx`, `get_stats_cpx` (CPLEX itself: a table of parameters that accepts some values) |
| README.md | the customisation lines of the usage script (74-87) |

### What is not modelled

* `add_mip_start_cpx` of `cplex_helper.py`, the import logic of `defaults.py` (which solvers are installed is a parameter), `paths.py`, plotting, HTML output,
  progress printing, number formatting of tables.
* Pandas inputs: data frames are column labels with rows of numbers, respectively row labels with rows; other dtypes are
  not represented.
* The text of error messages (only the exception class is modelled).

### Simplifications that hold throughout

* **Exact arithmetic**: numbers are elements of an arbitrary linearly ordered field with floor (rationals, reals), not
  IEEE doubles; NaN and infinities appear only where the code uses them as markers.  `np.isclose` tests are modelled
  with their tolerances.  Rounding errors of numpy are covered for grids by C103, for scores and
  predictions by C104, for answers by C105, for audits by C108 and for flipsets by C109 (`Rounding.lean`, `Model/Float*.lean`), and for percentiles and costs by C112, and are outside the model elsewhere.  Feasibility and integrality tolerances of
  solvers are covered by C102 (`SpecTol.lean`); all other properties assume a solver that is exact about the points it reports.
* **External functions are parameters**: `scipy.stats.gaussian_kde`, `np.log`, the iteration order of Python sets, and the
  MIP solver (`Oracle`: any function from integer programs to outcomes).  Theorems quantify over all parameters that
  satisfy an explicit hypothesis (`Oracle.Sound`: reported solutions are feasible/optimal as their status says,
  `Oracle.Complete`: never unfinished, positive densities, `LogOk`).  `Model/RealExt.lean` instantiates the
  logarithm and the density over the real numbers, and C90 proves the hypotheses about them.
* MIP variables carry structured names instead of strings (`u[j][k]`, ...); `Model/Names.lean` gives the
  strings, and C91 proves that different structured names are different strings.
* Sorting is stable in `Model/Flipset.lean` (pandas' default quicksort is not guaranteed to be); `Model/Tables.lean` and C110 remove
  this simplification.  Dictionaries keep insertion order.
* Action sets are values inside builders, auditors and flipsets in most modules, whose histories let the user change the set of an object at any
  time (`.user`).  `Model/Session.lean` models sharing by references, and C111_histories proves that every state of a program with shared objects is
  one of these histories.
* No numpy broadcasting beyond the cases listed in the definitions' comments.
* Enumeration loops take fuel; C41 proves that enough fuel exists, all statements quantify over every fuel.

## Plan and outcome per property

