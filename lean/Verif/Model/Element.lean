import Verif.Num

/-!
# Model of `_BoundElement` and `_ActionElement` (recourse/action_set.py)
-/

namespace Recourse

variable {K : Type} [Field K] [LinearOrder K] [IsStrictOrderedRing K] [FloorRing K]

/-- External functions (trusted base): `np.log` (recourse/builder.py:347-348),
`scipy.stats.gaussian_kde(values)` which returns a density or raises (recourse/action_set.py:810), and
the iteration order of a Python `set` of strings (recourse/action_set.py:302, 414). -/
structure Ext (K : Type) where
  log : K → K
  kde : List K → Except Err (K → K)
  setOrder : List String → List String

/-- `_determine_variable_type(values)` (recourse/action_set.py:1060-1071).  Columns are numeric in the
model, so the `ValueError` for strings is not reachable. -/
def determineType (values : List K) : VType :=
  if values.all isIntegral then
    if values.all (fun v => decide (v = 0 ∨ v = 1)) then .bool else .int
  else .float

/-! ## Bounds -/

/-- Bound types (recourse/action_set.py:887). -/
inductive BType
  | absolute | percentile
  deriving DecidableEq, Repr

/-- `_BoundElement` (recourse/action_set.py:881-1005): its stored fields. -/
structure Bound (K : Type) where
  btype : BType
  lb : K
  ub : K
  qlb : K
  qub : K
  deriving DecidableEq

/-- Parsing of `bound_type` (recourse/action_set.py:920-926, `_valid_bound_codes` 888). -/
def parseBType : PyVal K → Except Err BType
  | .str "a" => .ok .absolute
  | .str "p" => .ok .percentile
  | .str "absolute" => .ok .absolute
  | .str "percentile" => .ok .percentile
  | _ => .error .assertion

/-- A numeric bound accepted by the `isinstance` tests (recourse/action_set.py:932-933, 949, 955):
`float`, `int`, `bool`, or an array of one number.  Simplification: longer arrays with percentile
bounds, which make numpy raise on an ambiguous truth value, are reported as the same error. -/
def boundNum : PyVal K → Except Err K
  | .flt x => .ok x
  | .int i => .ok (i : K)
  | .bool b => .ok (if b then 1 else 0)
  | .arr [.flt x] => .ok x
  | .arr [.int i] => .ok (i : K)
  | .arr [.bool b] => .ok (if b then 1 else 0)
  | _ => .error .assertion

/-- `lb`/`ub` argument of an absolute bound with the data-driven default for `None`
(recourse/action_set.py:945-955). -/
def absNum (values : Option (List K)) (dflt : List K → K) : PyVal K → Except Err K
  | .none => match values with
    | some v => .ok (dflt v)
    | none => .error .assertion
  | v => boundNum v

/-- The variable type used by a bound (recourse/action_set.py:912-917). -/
def boundVType (values : Option (List K)) : Option VType → Except Err VType
  | some t => .ok t
  | none => match values with
    | some v => .ok (determineType v)
    | none => .error .assertion

/-- `(lb, ub, qlb, qub)` before rounding (recourse/action_set.py:928-958). -/
def boundPair (bt : BType) (lb ub : PyVal K) (values : Option (List K)) :
    Except Err (K × K × K × K) :=
  match bt with
  | .percentile => match values with
    | none => .error .assertion
    | some v => do
        let l ← boundNum lb
        let u ← boundNum ub
        pyAssert (decide (0 ≤ l ∧ l ≤ 100))
        pyAssert (decide (0 ≤ u ∧ u ≤ 100))
        .ok (npPercentile v l, npPercentile v u, l, u)
  | .absolute => do
      let l ← absNum values npMin lb
      let u ← absNum values npMax ub
      .ok (l, u, 0, 100)

/-- `_BoundElement.__init__` (recourse/action_set.py:891-972).  `vt = none` is `variable_type = None`. -/
def mkBound (bt lb ub : PyVal K) (values : Option (List K)) (vt : Option VType) :
    Except Err (Bound K) := do
  let vt ← boundVType values vt                                        -- 912-917
  let bt ← parseBType bt                                               -- 920-926
  let p ← boundPair bt lb ub values                                    -- 928-958
  pyAssert (decide (p.1 ≤ p.2.1))                                      -- 964
  if vt = .int then                                                    -- 966-972
    .ok { btype := bt, lb := (⌊p.1⌋ : K), ub := (⌈p.2.1⌉ : K), qlb := p.2.2.1, qub := p.2.2.2 }
  else
    .ok { btype := bt, lb := p.1, ub := p.2.1, qlb := p.2.2.1, qub := p.2.2.2 }

/-! ## Elements -/

/-- Step types (recourse/action_set.py:500). -/
inductive StepType
  | relative | absolute
  deriving DecidableEq, Repr

/-- The array `_grid` with its dtype: `isInt` records `astype('int')` (recourse/action_set.py:784-790). -/
structure Grid (K : Type) where
  vals : List K
  isInt : Bool
  deriving DecidableEq

/-- The cached interpolation table of `_interpolator` (recourse/action_set.py:545, 794-817): nodes, scores,
and the `fill_value` pair used left and right of the nodes. -/
structure Table (K : Type) where
  xs : List K
  ys : List K
  lo : K
  hi : K
  deriving DecidableEq

/-- `_ActionElement` (recourse/action_set.py:493-878): its instance attributes.
`flip = none` is `_flip_direction = nan`; `extra` holds attributes set on the instance that are no
properties of the class (plain Python attribute assignment). -/
structure Elem (K : Type) where
  name : String
  values : List K
  vtype : VType
  actionable : Bool
  bounds : Bound K
  stepType : StepType
  stepSize : K
  stepDir : Int
  flip : Option Int
  grid : Grid K
  cache : Option (Table K)
  extra : List (String × PyVal K)

/-- `start`, `stop` and effective `step` of `update_grid` (recourse/action_set.py:769-781). -/
def gridParams (vt : VType) (lb ub : K) (st : StepType) (s : K) : K × K × K :=
  let start := if vt = .int then (⌊lb⌋ : K) else lb
  let stop := if vt = .int then (⌈ub⌉ : K) else ub
  let step := if st = .relative then s * (stop - start) else s
  let step := if vt = .int then (⌈step⌉ : K) else step
  (start, stop, step)

/-- The grid computed by `update_grid` (recourse/action_set.py:765-790). -/
def mkGrid (vt : VType) (lb ub : K) (st : StepType) (s : K) : Except Err (Grid K) := do
  let (start, stop, step) := gridParams vt lb ub st s
  let g ← arange start (stop + step) step
  if vt = .int then .ok ⟨g.map trunc, true⟩ else .ok ⟨g, false⟩

/-- `update_grid()` (recourse/action_set.py:765-790).  The cached interpolator is kept. -/
def Elem.updateGrid (e : Elem K) : Except Err (Elem K) := do
  let g ← mkGrid e.vtype e.bounds.lb e.bounds.ub e.stepType e.stepSize
  .ok { e with grid := g }

/-- `bounds` setter (recourse/action_set.py:659-669): a list/tuple of length 2 or 3, or `None`.
Simplification: assigning a ready-made `_BoundElement` object is not modelled. -/
def parseBounds (values : List K) : PyVal K → Except Err (Bound K)
  | .list [l, u] | .tuple [l, u] => mkBound (.str "absolute") l u (some values) none
  | .list [l, u, t] | .tuple [l, u, t] => mkBound t l u (some values) none
  | .none => mkBound (.str "absolute") .none .none (some values) none
  | _ => .error .assertion

/-- `step_type` setter (recourse/action_set.py:728-732). -/
def parseStepType : PyVal K → Except Err StepType
  | .str "relative" => .ok .relative
  | .str "absolute" => .ok .absolute
  | _ => .error .assertion

/-- A number, or a container holding one number, as accepted by setters that call `np.sign`,
`np.isfinite`, `np.greater` and `float` on their argument (recourse/action_set.py:718-719, 742-743,
753-757).  Simplifications: the result of `np.sign` on a one-element container is identified with its
only entry; all rejections (`TypeError` for non-numbers, `ValueError` for longer containers) are
represented by `Err.type`. -/
def scalarNum : PyVal K → Except Err K
  | .flt x => .ok x
  | .int i => .ok (i : K)
  | .bool b => .ok (if b then 1 else 0)
  | .arr [.flt x] | .list [.flt x] | .tuple [.flt x] => .ok x
  | .arr [.int i] | .list [.int i] | .tuple [.int i] => .ok (i : K)
  | .arr [.bool b] | .list [.bool b] | .tuple [.bool b] => .ok (if b then 1 else 0)
  | _ => .error .type

/-- The `isinstance` test of the `step_size` setter (recourse/action_set.py:752). -/
def stepNum : PyVal K → Except Err K
  | .list _ | .tuple _ | .none | .str _ | .ty _ => .error .assertion
  | v => scalarNum v

/-- `step_size` setter (recourse/action_set.py:751-757): a positive number, at most 1 for relative steps. -/
def parseStepSize (st : StepType) (v : PyVal K) : Except Err K := do
  let s ← stepNum v
  pyAssert (decide (0 < s))
  pyAssert (decide (st = .relative → s ≤ 1))
  .ok s

/-- `bool(v)`: the truth value of a Python object (non-empty containers are true; a one-element array
has the truth value of its entry). -/
def truthy : PyVal K → Bool
  | .none => false
  | .bool b => b
  | .int i => decide (i ≠ 0)
  | .flt x => decide (x ≠ 0)
  | .str s => decide (s ≠ "")
  | .ty _ => true
  | .list l => !l.isEmpty
  | .tuple l => !l.isEmpty
  | .arr [.bool b] => b
  | .arr [.int i] => decide (i ≠ 0)
  | .arr [.flt x] => decide (x ≠ 0)
  | .arr _ => false

/-- Numbers equal to `False`/`True` (`np.isin(v, (False, True))` for a scalar). -/
def isBoolLike : PyVal K → Bool
  | .bool _ => true
  | .int i => decide (i = 0 ∨ i = 1)
  | .flt x => decide (x = 0 ∨ x = 1)
  | _ => false

/-- `assert np.isin(flag, (False, True))` (recourse/action_set.py:591): for a container `np.isin` is
elementwise; its truth value is defined only for one element. -/
def isinBool : PyVal K → Except Err Unit
  | .list [v] | .tuple [v] | .arr [v] => pyAssert (isBoolLike v)
  | .list [] | .tuple [] | .arr [] => .error .assertion
  | .list _ | .tuple _ | .arr _ => .error .value
  | v => pyAssert (isBoolLike v)

/-- `actionable` setter (recourse/action_set.py:589-592): note `bool(flag)`. -/
def parseActionable (v : PyVal K) : Except Err Bool := do
  isinBool v
  .ok (truthy v)

/-- `variable_type` setter (recourse/action_set.py:621-627). -/
def parseVType (values : List K) : PyVal K → Except Err VType
  | .none => .ok (determineType values)
  | .ty t => .ok t
  | _ => .error .assertion

/-- `aligned` (recourse/action_set.py:703-705). -/
def Elem.aligned (e : Elem K) : Bool := e.flip.isSome

/-- `compatible` (recourse/action_set.py:595-612); `none` is NaN. -/
def Elem.compatible (e : Elem K) : Option Bool :=
  match e.flip with
  | none => none
  | some fd =>
    if !e.actionable then some false
    else some (!(decide (fd = 0) || decide (fd * e.stepDir = -1)))

/-- `lb` setter (recourse/action_set.py:677-684). -/
def Elem.setLb (e : Elem K) (v : PyVal K) : Except Err (Elem K) :=
  match e.bounds.btype with
  | .percentile => do
      let b ← mkBound (.str "percentile") v (.flt e.bounds.qub) (some e.values) none
      .ok { e with bounds := b }
  | .absolute => do
      let b ← mkBound (.str "absolute") v (.flt e.bounds.ub) (some e.values) none
      .ok { e with bounds := b }

/-- `ub` setter (recourse/action_set.py:692-699). -/
def Elem.setUb (e : Elem K) (v : PyVal K) : Except Err (Elem K) :=
  match e.bounds.btype with
  | .percentile => do
      let b ← mkBound (.str "percentile") (.flt e.bounds.qlb) v (some e.values) none
      .ok { e with bounds := b }
  | .absolute => do
      let b ← mkBound (.str "absolute") (.flt e.bounds.lb) v (some e.values) none
      .ok { e with bounds := b }

/-- `_check_rep` (recourse/action_set.py:549-559): bounds ordered, grid duplicate-free and sorted
(the code compares neighbours; by transitivity this is the pairwise order used here). -/
def Elem.checkRep (e : Elem K) : Bool :=
  decide (e.bounds.lb ≤ e.bounds.ub) && decide (e.grid.vals.Nodup)
    && decide (e.grid.vals.Pairwise (· ≤ ·))

/-- `_ActionElement.__init__` (recourse/action_set.py:504-546). -/
def mkElem (name : String) (values : List K) (bounds : PyVal K) (vt : Option VType)
    (actionable : Bool) (stepType : PyVal K) (stepDir : K) (stepSize : PyVal K) :
    Except Err (Elem K) := do
  pyAssert (decide (1 ≤ name.length))                                  -- 518
  let values := npSort values                                          -- 522
  pyAssert (decide (1 ≤ values.length))                                -- 523
  let vt := vt.getD (determineType values)                             -- 528, 621-627
  let b ← parseBounds values bounds                                    -- 535
  let st ← parseStepType stepType                                      -- 538
  let s ← parseStepSize st stepSize                                    -- 539
  let g ← mkGrid vt b.lb b.ub st s                                     -- 541-542
  let e : Elem K :=
    { name := name, values := values, vtype := vt, actionable := actionable, bounds := b,
      stepType := st, stepSize := s, stepDir := sgn stepDir, flip := none, grid := g,
      cache := none, extra := [] }
  pyAssert e.checkRep                                                  -- 546
  .ok e

/-- The attribute names of `_ActionElement` that are settable properties
(recourse/action_set.py:589, 621, 659, 677, 692, 716, 728, 740, 751). -/
def settableAttrs : List String :=
  ["actionable", "variable_type", "bounds", "lb", "ub", "flip_direction", "step_type",
   "step_direction", "step_size"]

/-- The read-only properties of `_ActionElement` (recourse/action_set.py:572, 578, 596, 631, 704, 761,
795). -/
def readonlyAttrs : List String :=
  ["name", "values", "compatible", "size", "aligned", "grid", "interpolator"]

/-- The methods and class attributes of `_ActionElement` (recourse/action_set.py:499-501, 549-566, 765,
801, 820, 825) that `hasattr(_ActionElement, name)` also finds. -/
def methodAttrs : List String :=
  ["update_grid", "update_interpolator", "percentile", "feasible_values", "_check_rep",
   "_default_check_flag", "_valid_step_types", "_valid_variable_types"]

/-- `hasattr(_ActionElement, name)` (recourse/action_set.py:142, 149, 1030).  Dunder names are not
listed. -/
def hasElemAttr (n : String) : Bool :=
  n ∈ settableAttrs ∨ n ∈ readonlyAttrs ∨ n ∈ methodAttrs ∨ n = "bound_type"

/-- The kind of attribute behind a name. -/
inductive Attr
  | actionable | variableType | bounds | lb | ub | flipDirection | stepType | stepDirection
  | stepSize | boundType | readonly | plain
  deriving DecidableEq, Repr

/-- The attribute of `_ActionElement` that a name refers to: a property with a setter
(recourse/action_set.py:589, 621, 644, 659, 677, 692, 716, 728, 740, 751), a read-only property, or any
other name. -/
def attrOf (n : String) : Attr :=
  if n = "actionable" then .actionable
  else if n = "variable_type" then .variableType
  else if n = "bounds" then .bounds
  else if n = "lb" then .lb
  else if n = "ub" then .ub
  else if n = "flip_direction" then .flipDirection
  else if n = "step_type" then .stepType
  else if n = "step_direction" then .stepDirection
  else if n = "step_size" then .stepSize
  else if n = "bound_type" then .boundType
  else if n ∈ readonlyAttrs then .readonly
  else .plain

/-- Assignment `e.attr = v` on an `_ActionElement`: the property setters
(recourse/action_set.py:589-757); read-only properties raise `AttributeError`; the `bound_type` setter
takes no value and raises `TypeError` (644-651); any other name becomes an ordinary instance
attribute.  Simplification: overriding a method of an instance is recorded in `extra` and has no
effect on the modelled methods. -/
def Elem.setAttr (e : Elem K) (attr : String) (v : PyVal K) : Except Err (Elem K) :=
  match attrOf attr with
  | .actionable => do
      let a ← parseActionable v
      .ok { e with actionable := a }
  | .variableType => do
      let t ← parseVType e.values v
      .ok { e with vtype := t }
  | .bounds => do
      let b ← parseBounds e.values v
      .ok { e with bounds := b }
  | .lb => e.setLb v
  | .ub => e.setUb v
  | .flipDirection => do
      let f ← scalarNum v
      .ok { e with flip := some (sgn f) }
  | .stepType => do
      let t ← parseStepType v
      .ok { e with stepType := t }
  | .stepDirection => do
      let f ← scalarNum v
      .ok { e with stepDir := sgn f }
  | .stepSize => do
      let s ← parseStepSize e.stepType v
      .ok { e with stepSize := s }
  | .boundType => .error .type
  | .readonly => .error .attribute
  | .plain => .ok { e with extra := (attr, v) :: e.extra }

/-! ## Percentiles -/

/-- `left_buffer = right_buffer = 1e-6` (recourse/action_set.py:801). -/
def pbuf : K := 1 / 10 ^ 6

/-- The table built by `update_interpolator(left_buffer, right_buffer)` (recourse/action_set.py:801-817) on the
current grid. -/
def Elem.newTable (ext : Ext K) (e : Elem K) (left right : K) : Except Err (Table K) := do
  pyAssert (decide (0 ≤ left ∧ left < 1))                              -- 805
  pyAssert (decide (0 ≤ right ∧ right < 1))                            -- 806
  pyAssert (decide (left + right < 1))                                 -- 807
  let pdf ← ext.kde e.values                                           -- 810
  let raw := cumsum (e.grid.vals.map pdf)                              -- 813-814
  let total := raw.getLastD 0 + left + right                           -- 815
  .ok { xs := e.grid.vals, ys := raw.map fun c => (left + c) / total,  -- 816-817
        lo := left, hi := 1 - right }

/-- The table built by `update_interpolator()` with its default buffers (recourse/action_set.py:801). -/
def Elem.freshTable (ext : Ext K) (e : Elem K) : Except Err (Table K) := e.newTable ext pbuf pbuf

/-- `update_interpolator(left_buffer, right_buffer)` (recourse/action_set.py:801-817): replaces the table. -/
def Elem.updateInterpolator (ext : Ext K) (e : Elem K) (left right : K) : Except Err (Elem K) := do
  let t ← e.newTable ext left right
  .ok { e with cache := some t }

/-- `interpolator` (recourse/action_set.py:794-798): the cached table, or a fresh one. -/
def Elem.table (ext : Ext K) (e : Elem K) : Except Err (Table K) :=
  match e.cache with
  | some t => .ok t
  | none => e.freshTable ext

/-- The side effect of `interpolator`: the table is cached (recourse/action_set.py:796-797). -/
def Elem.fillCache (ext : Ext K) (e : Elem K) : Elem K :=
  match e.table ext with
  | .ok t => { e with cache := some t }
  | .error _ => e

/-- Evaluation of the `interp1d` object with `bounds_error = False` and
`fill_value = (left_buffer, 1 - right_buffer)` (recourse/action_set.py:817, 820-821). -/
def Table.eval (t : Table K) (x : K) : K :=
  if x < t.xs.headD 0 then t.lo
  else if t.xs.getLastD 0 < x then t.hi
  else interpSeg t.xs t.ys x

/-! ## Feasible values -/

/-- Restriction to one side of `x`: `np.extract(np.greater_equal(l, x), l)` for a positive direction,
`np.extract(np.less_equal(l, x), l)` for a negative one (recourse/action_set.py:850-853, 865-868). -/
def dirFilter (d : Int) (x : K) (l : List K) : List K :=
  if 0 < d then l.filter (fun v => decide (x ≤ v))
  else if d < 0 then l.filter (fun v => decide (v ≤ x))
  else l

/-- The array `x_new` before dropping suboptimal values (recourse/action_set.py:844-860): the grid values
allowed by the step direction, and `x`.  `np.insert` into an integer array truncates `x`. -/
def Elem.baseX (e : Elem K) (x : K) : List K :=
  if e.actionable then
    if x ∈ dirFilter e.stepDir x e.grid.vals then dirFilter e.stepDir x e.grid.vals
    else npInsert (dirFilter e.stepDir x e.grid.vals)
      (searchsorted (dirFilter e.stepDir x e.grid.vals) x) (if e.grid.isInt then trunc x else x)
  else [x]

/-- The array `x_new` of `feasible_values` (recourse/action_set.py:844-868): current value and grid
values, restricted by step direction, and by flip direction if `drop` (`drop_suboptimal`).  With an
unaligned element all comparisons with NaN are false, so nothing is dropped. -/
def Elem.feasX (e : Elem K) (x : K) (drop : Bool) : List K :=
  match drop, e.flip with
  | true, some f => dirFilter f x (e.baseX x)
  | _, _ => e.baseX x

/-- `feasible_values(x, return_actions, return_percentiles = False, drop_suboptimal)`
(recourse/action_set.py:825-878).  `np.isfinite(x)` always holds in the model. -/
def Elem.feasibleValues (e : Elem K) (x : K) (retActions drop : Bool) : Except Err (List K) := do
  pyAssert (!retActions || e.aligned)
  if retActions then .ok ((e.feasX x drop).map (· - x)) else .ok (e.feasX x drop)

/-- The percentile part of `feasible_values(..., return_percentiles = True)`
(recourse/action_set.py:875-876). -/
def Elem.feasiblePercentiles (ext : Ext K) (e : Elem K) (x : K) (drop : Bool) :
    Except Err (List K) := do
  let t ← e.table ext
  .ok ((e.feasX x drop).map t.eval)

end Recourse
