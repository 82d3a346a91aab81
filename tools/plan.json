{
 "C01": "model `update_grid` over an ordered field; closed form of `arange`; induction-free via list-range algebra",
 "C02": "refutation with a literal integer feature; `_partial`: within bounds iff the step divides the range",
 "C03": "op datatype for attribute assignments, induction over op lists: grid invariant; refutation of the intended claim",
 "C04": "model `feasible_values`; membership; refutation for integer grids",
 "C05": "sortedness of filtered grid + insertion at `searchsorted`",
 "C06": "membership characterisation of `feasible_values`",
 "C07": "iff characterisation of membership",
 "C08": "model cumulative sums and piecewise linear interpolation; density is an external parameter assumed positive; induction over segments",
 "C09": "model `_BoundElement.__init__`, `np.percentile`; case analysis",
 "C10": "decision logic",
 "C11": "decision logic + sign arithmetic",
 "C12": "model of `set_alignment`",
 "C13": "induction over histories of set_alignment / y_desired",
 "C14": "model `_expand_values` over Python values, `__setattr__`; refutation",
 "C15": "model `__getitem__` over Python index values; refutation for bool lists",
 "C16": "`setattr` with unknown attribute; refutation",
 "C17": "model `__init__`",
 "C18": "op lists on the constraint registry; refutation with chosen ids",
 "C19": "invariant by induction over op lists",
 "C20": "model `feasible_grid`",
 "C21": "model the dispatch",
 "C22": "literal integer program (variables, linear constraints, SOS); decode any feasible point; quantify over every sound solver",
 "C23": "consequence of C22 for the sign; refutation witness with score 0",
 "C24": "bijection choices <-> feasible points",
 "C25": "C24 + exchange argument (moves against the flip direction of features in no subset limit can be zeroed)",
 "C26": "C24 + exchange argument on costs",
 "C27": "refutation instance; additive bound",
 "C28": "decode of solution_info",
 "C29": "solver outcome datatype; refutations per back end",
 "C30": "equality of feasible regions/objective of the two builds",
 "C31": "refutation instance + raise theorem For other signs: the exchange argument with alignment required only of the changed features (exchange_any) gives the exact answer set.",
 "C32": "model of set_mip_item_limits on the program",
 "C33": "history independence of the state after assigning x",
 "C34": "state returned also on exceptions; refutation",
 "C35": "refutation + `_partial` when all columns up to the last listed one are usable (`Spec.LimitsApply`)",
 "C36": "both cost types",
 "C37": "induction over the enumeration loop; cut lemma",
 "C38": "loop invariant",
 "C39": "loop invariant (shrinking feasible regions)",
 "C40": "loop invariant",
 "C41": "fuel bound; strictly decreasing number of remaining patterns",
 "C42": "loop invariant over two runs; refutation of optimality of fit",
 "C43": "refutation instance",
 "C44": "model of audit (np.unique, reindex, iloc)",
 "C45": "model of audit + C22/C25",
 "C46": "model of audit",
 "C47": "refutation instance + theorem when settings agree",
 "C48": "feasibility is determined by the row alone (exact solver)",
 "C49": "invariant over histories",
 "C50": "sortedness; lexicographic order",
 "C51": "sign arithmetic; refutation",
 "C52": "validation precedes mutation",
 "C53": "state machine of Flipset.populate",
 "C54": "model of the counting; universally zero",
 "C55": "decision logic + min",
 "C56": "table as part of the state, induction over histories that keep it in sync; pointwise description of the interpolated distribution function; refutation",
 "C57": "induction over the assignment loop; refutation",
 "C58": "invariant over histories of populate",
 "C59": "composition of C22/C37 with validation",
 "C60": "list algebra on the rows; refutation for empty LaTeX tables",
 "C61": "induction over histories of assignments; refutation",
 "C62": "case analysis per attribute, `np.percentile` specified independently",
 "C63": "reads as maps over features; idempotence of the bound constructor; refutation for percentile bounds",
 "C64": "rows described feature by feature; refutation for LaTeX and slices",
 "C65": "apply C66 in both directions, with the factor and its inverse; refutation for factor 1e-9",
 "C66": "choices admitted by the first programme are admitted by the second: same moves, score affine in the factor and the intercept; exact solvers then compare",
 "C67": "signs of both cost formulas agree when percentiles are below 1, so the same actions are dropped and the same choices are admitted",
 "C68": "undo part of a choice: still admitted, strictly cheaper objective; contradiction with optimality; for enumerations with what earlier items cut",
 "C69": "compatible features are oriented towards the desired side; every choice inherits it",
 "C70": "combine C22 with the selection rule of the audit; refutation with one binary feature",
 "C71": "recourse and costs carry over along the relaxation; then C25, C26, C27",
 "C72": "direct on the setters; the next answer through C22 and the invariant of reachable builders",
 "C73": "exchange argument within actions of at least min_items changes",
 "C74": "model of __new__/__init__ with keyword arguments, installed solvers and the shared action set",
 "C75": "the program without objective has the same feasible assignments; exact solver",
 "C76": "the two programs have the same feasible choices and objectives (score constraint negated)",
 "C77": "build information column by column; programs with the same features at other positions, choices mapped by feature name; with subset limits the choices mapped by name have the same numbers of nonzero features",
 "C78": "as C77: incompatible columns contribute no feature; with subset limits the same (`Leaves`)",
 "C79": "inner joins on index labels; countP of the joined rows; sorted lists for the median",
 "C80": "both builders pose the same question (SameQuestion); comparison of admitted choices",
 "C81": "normal form of a set with all percentile tables filled; invariant over all uses; setters commute with the normal form",
 "C82": "sorting and the type test are invariant under permutations; the rest of the constructor is a function of them",
 "C83": "every stage of the constructor commutes with the conversion; recourse is transferred action by action; minimal costs by C26",
 "C84": "C45 and C53 for the two sides; the action sets offer the same actions at the same costs (Lemmas/Offers), regular situations carry over",
 "C85": "direct; alignment through mkBuilder_aligned and C12; replacement (by an element of the same name) is a step of the histories of action sets, so all theorems about reachable sets cover it",
 "C86": "equivalence by inverting the do-blocks; checks by the invariants of elements (bounds in order, grids strictly increasing) and C74; flags by induction over the history of the set",
 "C87": "fit_report (C28) and C22 give costs and counts; offered moves are never close to 0 (FeatSpec.offered), so the tolerant comparison of the check finds exactly the changed features; C23 for rejected persons",
 "C88": "totality lemma for every step of the assignment (feasible grid, build info, checks, limits), converse from buildInfo_spec; Fresh.lean specialises to new sets",
 "C89": "C25 gives infeasibility when no combination reaches; the choice of the ends of all grids is a combination, and dominates every other one term by term",
 "C90": "instantiate the external functions over the reals (Real.log, mean of normal densities); prove positivity, existence and monotonicity; apply C17_succeeds, C88 and C89",
 "C91": "decimal notation is injective and separators are not digits; invariant of programs kept by cuts and item limits, by induction over histories",
 "C92": "C35 and C22 for groups; limits apply by the shape of the grids; C25 and C88 for one group, all points with at most one 1 are unit vectors or 0",
 "C93": "traces of two enumerations of one program; a position-by-position comparison by a pigeonhole argument on feature sets",
 "C94": "C30 for the first item; an exact solver steered to a given optimum for the refutation",
 "C95": "both audits reduced to one posed program (C30, C45); an exact solver steered to either of two optima for the refutation",
 "C96": "each test transcribed as a sequence of modelled calls; reduced to C12, C17, C18, C22, C28, C36, C37, C40, C44 and C86",
 "C97": "a solver object as a function from parameter names to values with a log of refusals; effect of a sequence of settings by induction over the sequence",
 "C98": "the same solver object; each helper as a sequence of settings",
 "C99": "conversion of every argument shape to a list, then position by position",
 "C100": "scripts as lists of lines, run until the first exception; induction over the script relates it to the per-feature subscript; the README as an instance, its effect on recourse through C58",
 "C101": "HTML: block by block from the flat table of C60; LaTeX: str.replace on lists of characters, induction over the text and over the names",
 "C102": "rounding the indicators to the choice behind a nearly feasible point; integer constraints with small error hold exactly; cuts read with np.isclose are those of the choice",
 "C103": "grids computed with a rounding after every operation; error analysis of the entries and of the count of np.arange; doubles defined and shown to be a rounding",
 "C104": "dot products as any tree of rounded additions of (possibly rounded) products; forward error bound by induction over the tree; sign with margin",
 "C105": "the build step with a rounding after every operation; the integer program it creates is related to the exact one by the tolerance analysis of C102 with the rounded actions; for the converse the helpful part of an action with a margin is shown to be a choice of the rounded program: rounding keeps signs, so no grid value is lost unless two of them are closer than the rounding error",
 "C106": "the list of the columns of the program is specified from the action set and the point; it is shown to be the list the program uses, and the choices of the program to be exactly the recourse that respects the limits at these positions",
 "C107": "the cuts of both back ends are expressed on action vectors (changed features, or columns at rest); induction over the loop",
 "C108": "the loop over rows keeps the setup of the builder (SameSetup), so every entry is an answer of a builder assigned in floating point; C105 is applied to each",
 "C109": "invariants over histories as for C49, C58 with rounded rows; error of the dot product at the rounded sum x + a; C105 for the items",
 "C110": "sorting algorithm as a parameter; populate with it agrees with the stable one up to the order of rows, so the invariant of C49 carries over; lines grouped by label; merge on (item, position) shown to be row by row since labels are distinct",
 "C111": "heap model of a program (objects refer to shared sets and builders); (1) invariant over calls; (2) simulation between the program and its restriction to the calls of one builder: sets agree up to cached percentiles, builders and flipsets agree up to the set",
 "C112": "roundings as in C104; running sums are monotone under any monotone rounding; error factors multiply; np.interp returns table scores at knots because its slope term is 0 there; interp1d for integer grids recomputes right ends, with four rounding errors",
 "C113": "a heap of data frames next to the flipset model; sorting works in place, append makes a new frame; induction over the program; two runs that differ in replaced frames stay equal otherwise",
 "C114": "a memory of arrays next to the sessions of C111, and for every object the array it works with; invariant: that array still holds what the object was made with, because calls keep coefficients and points; simulation of the session by induction over the program",
 "C115": "the loop with a smaller total stops at a state from which the loop with the larger total goes on (induction over the smaller total, independence of fuel and accumulator); a stable sort absorbs an earlier sort of a part",
 "C116": "each answer is a permitted recourse for the other builder; minimality of both (C26, C27) and a bound of a sum by the number of its nonzero terms times the largest",
 "C117": "the rest of the answer is a permitted recourse at the new point with the same costs; in the other direction the part and the new answer merge into one permitted recourse at the old point, and costs satisfy the triangle inequality",
 "C118": "an invariant of cached tables over all histories of a feature: scores increase and lie between 0 and 1; interpolation stays between them; costs are differences of percentiles",
 "C119": "a relation between the grids at both points: entries are equal, or belong to a feature with a single offered value; so the features of the program are equal, and every choice admitted at the first point is admitted at the second",
 "C120": "the programs built at both points are equal (grids of fixed features do not enter), so the builders differ in the stored point only; a simulation over the calls, none of which reads that point",
 "C121": "the grid, the offers and the table are computed from the settings and the data only; the states compared are arbitrary",
 "C122": "each setter is brought into the form: parse the value (reading only fields of its own topic and the data), store it; then stores to different fields commute"
}