import Verif.Model.ActionSet

/-!
# Model of attribute reads and tables of action sets (recourse/action_set.py)
-/

namespace Recourse

variable {K : Type} [Field K] [LinearOrder K] [IsStrictOrderedRing K] [FloorRing K]

/-- The string returned by `bound_type` (recourse/action_set.py:639-641, 975-977). -/
def BType.toStr : BType → String
  | .absolute => "absolute"
  | .percentile => "percentile"

/-- The string returned by `step_type` (recourse/action_set.py:723-725). -/
def StepType.toStr : StepType → String
  | .relative => "relative"
  | .absolute => "absolute"

/-- Reading `e.attr` of an `_ActionElement` (recourse/action_set.py:571-761): the properties, or an ordinary
instance attribute.  NaN (of `compatible` and `flip_direction`, 601, 713) is represented by `PyVal.none`.
Simplification: reading a method, the interpolator object or the private `_BoundElement` object behind `bounds`
is not modelled and reported as `AttributeError`. -/
def Elem.getAttr (e : Elem K) (n : String) : Except Err (PyVal K) :=
  if n = "name" then .ok (.str e.name)                                  -- 572-574
  else if n = "values" then .ok (.arr (e.values.map .flt))              -- 578-580
  else if n = "actionable" then .ok (.bool e.actionable)                -- 584-586
  else if n = "compatible" then                                         -- 596-612
    .ok (match e.compatible with | some b => .bool b | none => .none)
  else if n = "variable_type" then .ok (.ty e.vtype)                    -- 616-618
  else if n = "size" then .ok (.int e.grid.vals.length)                 -- 631-634
  else if n = "bound_type" then .ok (.str e.bounds.btype.toStr)         -- 640-641
  else if n = "lb" then .ok (.flt e.bounds.lb)                          -- 672-674
  else if n = "ub" then .ok (.flt e.bounds.ub)                          -- 687-689
  else if n = "aligned" then .ok (.bool e.aligned)                      -- 704-705
  else if n = "flip_direction" then                                     -- 709-713
    .ok (match e.flip with | some f => .int f | none => .none)
  else if n = "step_type" then .ok (.str e.stepType.toStr)              -- 723-725
  else if n = "step_direction" then .ok (.int e.stepDir)                -- 735-737
  else if n = "step_size" then .ok (.flt e.stepSize)                    -- 746-748
  else if n = "grid" then .ok (.arr (e.grid.vals.map .flt))             -- 760-762
  else match e.extra.lookup n with
    | some v => .ok v
    | none => .error .attribute

/-- Reading `A[name].attr` (recourse/action_set.py:114-115). -/
def ActionSet.getElemAttr (A : ActionSet K) (name attr : String) : Except Err (PyVal K) :=
  match A.elem? name with
  | some e => e.getAttr attr
  | none => .error .key

/-- Reading `A.attr` (recourse/action_set.py:141-145).  The test `name in ('alignment_known')` is a substring
test on a string; no modelled attribute of `_ActionElement` is a substring of it.  Simplification: of the
attributes of the set itself only `y_desired`, `alignment_known`, the two flags (24-25: `True` unless assigned)
and user-assigned ones are represented. -/
def ActionSet.getAttr (A : ActionSet K) (n : String) : Except Err (PyVal K) :=
  if n.toList.head? = some '_' ∨ hasElemAttr n = false then
    if n = "y_desired" then .ok (.int A.yDesired)
    else if n = "alignment_known" then .ok (.bool A.alignmentKnown)
    else match A.extra.lookup n with
      | some v => .ok v
      | none => if n = "check_flag" ∨ n = "print_flag" then .ok (.bool true) else .error .attribute
  else do
    let l ← A.elems.mapM fun e => e.getAttr n
    .ok (.list l)

/-- Reading an attribute of the feature at position `p` of a slice (recourse/action_set.py:1018, 1024). -/
def ActionSet.readAt (A : ActionSet K) (attr : String) (p : ℕ) : Except Err (PyVal K) :=
  match A.elems[p]? with
  | some e => e.getAttr attr
  | none => .error .key

/-- Reading `A[idx].attr` for an index that yields an `_ActionSlice` (recourse/action_set.py:1017-1024): features
occur once, at the place of their first occurrence. -/
def ActionSet.getSliceAttr (A : ActionSet K) (idx : PyIdx K) (attr : String) : Except Err (PyVal K) := do
  let pos ← A.getItem idx
  let l ← (sliceEntries pos).mapM fun (p : ℕ × ℕ) => A.readAt attr p.1
  .ok (.list l)

/-! ## Tables -/

/-- A row of `A.df` (recourse/action_set.py:202-217). -/
structure DfRow (K : Type) where
  name : PyVal K
  variableType : PyVal K
  lb : PyVal K
  ub : PyVal K
  gridSize : PyVal K
  stepSize : PyVal K
  actionable : PyVal K
  compatible : PyVal K
  stepDirection : PyVal K
  flipDirection : PyVal K

/-- The entries of a list-valued attribute. -/
def PyVal.items : PyVal K → List (PyVal K)
  | .list l => l
  | _ => []

/-- `A.df` (recourse/action_set.py:202-217): a data frame built from ten attribute reads, row by row. -/
def ActionSet.df (A : ActionSet K) : Except Err (List (DfRow K)) := do
  let name ← A.getAttr "name"
  let vt ← A.getAttr "variable_type"
  let lb ← A.getAttr "lb"
  let ub ← A.getAttr "ub"
  let size ← A.getAttr "size"
  let ss ← A.getAttr "step_size"
  let act ← A.getAttr "actionable"
  let comp ← A.getAttr "compatible"
  let sd ← A.getAttr "step_direction"
  let fd ← A.getAttr "flip_direction"
  .ok ((List.range name.items.length).map fun i =>
    { name := name.items.getD i .none, variableType := vt.items.getD i .none,
      lb := lb.items.getD i .none, ub := ub.items.getD i .none, gridSize := size.items.getD i .none,
      stepSize := ss.items.getD i .none, actionable := act.items.getD i .none,
      compatible := comp.items.getD i .none, stepDirection := sd.items.getD i .none,
      flipDirection := fd.items.getD i .none })

/-- The type column of the LaTeX table. -/
inductive TexType
  | binary | integer | real
  deriving DecidableEq, Repr

/-- A row of the table of `texify_action_set` (recourse/action_set.py:1134-1180).  The numbers `lb`, `ub` stand
for their formatted versions (`'%1.1f'` for type `real`, `'%d'` otherwise). -/
structure TexRow (K : Type) where
  name : PyVal K
  type : TexType
  lb : PyVal K
  ub : PyVal K
  gridSize : PyVal K
  stepSize : PyVal K
  mutability : String

/-- `df['variable_type'][i] == 'int'` (recourse/action_set.py:1154): the column holds the type objects `bool`,
`int`, `float`, and no type object equals a string. -/
def equalsIntString : PyVal K → Bool
  | .str s => decide (s = "int")
  | _ => false

/-- `(a & d) == 1` for a truth value `a` and a direction `d` (recourse/action_set.py:1164; `&` binds tighter than
`==`): the conjunction of a boolean and an integer column is a boolean column, and `True == 1`. -/
def upIdx : PyVal K → PyVal K → Bool
  | .bool a, .int d => a && decide (d ≠ 0)
  | _, _ => false

/-- `(a & d) == -1` (recourse/action_set.py:1165): a boolean is never -1. -/
def dnIdx : PyVal K → PyVal K → Bool
  | _, _ => false

/-- One row of `texify_action_set` (recourse/action_set.py:1145-1169). -/
def texRow (r : DfRow K) : TexRow K :=
  let type := if equalsIntString r.variableType then
      (match r.lb, r.ub with
       | .flt l, .flt u => if l = 0 ∧ u = 1 then TexType.binary else TexType.integer
       | _, _ => TexType.integer)
    else TexType.real
  let mutability := match r.actionable with | .bool true => "yes" | _ => "no"        -- 1163
  let mutability := if upIdx r.actionable r.stepDirection then "only increases" else mutability
  let mutability := if dnIdx r.actionable r.stepDirection then "only decreases" else mutability
  { name := r.name, type := type, lb := r.lb, ub := r.ub, gridSize := r.gridSize, stepSize := r.stepSize,
    mutability := mutability }

/-- `A.to_latex()` (recourse/action_set.py:220-224, 1134-1180), up to number formatting.  Simplification: step
directions are assigned as integers (with a float column `&` raises `TypeError`). -/
def ActionSet.toLatex (A : ActionSet K) : Except Err (List (TexRow K)) := do
  let d ← A.df
  .ok (d.map texRow)

/-- What `tabulate_actions` is given: an `ActionSet` or an `_ActionSlice` (recourse/action_set.py:157-158,
1038-1039). -/
inductive Printed
  | set | slice
  deriving DecidableEq

/-- A row of `tabulate_actions` (recourse/action_set.py:1119-1131), by column title. -/
def ActionSet.tabulate (A : ActionSet K) (what : Printed) : Except Err (List (String × List (PyVal K))) := do
  pyAssert (decide (what = .set))                                       -- 1117
  let col := fun (title attr : String) => do
    let v ← A.getAttr attr
    (.ok (title, v.items) : Except Err (String × List (PyVal K)))
  [("name", "name"), ("variable type", "variable_type"), ("actionable", "actionable"),
   ("compatible", "compatible"), ("step direction", "step_direction"), ("flip direction", "flip_direction"),
   ("grid size", "size"), ("step type", "step_type"), ("step size", "step_size"), ("lb", "lb"),
   ("ub", "ub")].mapM fun (p : String × String) => col p.1 p.2

end Recourse
