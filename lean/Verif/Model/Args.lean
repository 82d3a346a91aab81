import Verif.Model.Reads
import Verif.Model.Construct

/-!
# Model of the constructor arguments of `ActionSet`, the flags, and the internal checks
-/

namespace Recourse

variable {K : Type} [Field K] [LinearOrder K] [IsStrictOrderedRing K] [FloorRing K]

/-- The argument `X` of `ActionSet(X, ...)` (recourse/action_set.py:59-62): a two-dimensional array given by its rows, a
data frame with its column labels, or anything else (also arrays of other dimensions, 68).  Simplification: entries are
finite numbers. -/
inductive DataArg (K : Type)
  | matrix (rows : List (List K))
  | frame (cols : List (PyVal K)) (rows : List (List K))
  | other

/-- The keyword arguments of `ActionSet` (recourse/action_set.py:74-78); `none` means not given.  Simplification:
`custom_bounds` is a dictionary. -/
structure SetKwargs (K : Type) where
  customBounds : Option (List (String × PyVal K)) := none
  defaultBounds : Option (PyVal K) := none
  defaultStepType : Option (PyVal K) := none
  printFlag : Option (PyVal K) := none
  checkFlag : Option (PyVal K) := none

/-- One entry of a list of names (recourse/action_set.py:1053). -/
def asName : PyVal K → Except Err String
  | .str s => .ok s
  | _ => .error .assertion

/-- A list of strings (recourse/action_set.py:1052-1053); anything else fails an assertion. -/
def asNames : PyVal K → Except Err (List String)
  | .list l => l.mapM asName
  | _ => .error .assertion

/-- The rows and the names (recourse/action_set.py:59-62): a data frame replaces the argument `names`. -/
def DataArg.rowsAndNames (d : DataArg K) (names : PyVal K) : Except Err (List (List K) × PyVal K) :=
  match d with
  | .matrix X => .ok (X, names)
  | .frame cols X => .ok (X, .list cols)
  | .other => .error .assertion

/-- `check_flag` of a set (recourse/action_set.py:166-168). -/
def ActionSet.checkFlag (A : ActionSet K) : Bool :=
  match A.extra.lookup "check_flag" with
  | some (.bool b) => b
  | _ => true

/-- `print_flag` of a set (recourse/action_set.py:187-189). -/
def ActionSet.printFlag (A : ActionSet K) : Bool :=
  match A.extra.lookup "print_flag" with
  | some (.bool b) => b
  | _ => true

/-- `ActionSet._check_rep` (recourse/action_set.py:177-184): true, or a failing assertion (`false`). -/
def ActionSet.checkRep (A : ActionSet K) : Bool :=
  !A.checkFlag || (A.elems.all Elem.aligned || !(A.elems.any Elem.aligned))

/-- The integer behind the argument `y_desired` (recourse/action_set.py:99-100: `y in (-1, 0, 1)`). -/
def yArg (y : PyVal K) : Except Err Int :=
  match yValue y with
  | some i => .ok i
  | none => .error .assertion

/-- `ActionSet(X, names, y_desired, **kwargs)` (recourse/action_set.py:29-101) with all its arguments, in the order of
the code. -/
def newActionSet (d : DataArg K) (names y : PyVal K) (kw : SetKwargs K) : Except Err (ActionSet K) := do
  let r ← d.rowsAndNames names                                          -- 59-62
  let ns ← asNames r.2                                                  -- 65
  pyAssert (checkVariableNames ns)                                      -- 65
  pyAssert (decide (1 ≤ r.1.length))                                    -- 69
  pyAssert (r.1.all fun q => decide (q.length = ns.length))             -- 70
  let pf ← plainAttr "print_flag" (kw.printFlag.getD (.bool true))      -- 77
  let cf ← plainAttr "check_flag" (kw.checkFlag.getD (.bool true))      -- 78
  let elems ← ns.zipIdx.mapM fun (p : String × ℕ) =>
    mkColumn r.1 (kw.customBounds.getD []) (kw.defaultBounds.getD Recourse.defaultBounds)
      (kw.defaultStepType.getD (.str "relative")) p.2 p.1               -- 83-91
  let y ← yArg y
  pyAssert (decide (y = -1 ∨ y = 0 ∨ y = 1))                            -- 99
  let A : ActionSet K := { names := ns, elems := elems, cons := Constraints.init ns,
                           yDesired := if 0 < y then 1 else -1,
                           extra := [("check_flag", cf), ("print_flag", pf)] }
  pyAssert A.checkRep                                                   -- 101
  .ok A

/-- `_ActionElement.__init__` without its last line (recourse/action_set.py:504-543). -/
def mkElemUnchecked (name : String) (values : List K) (bounds : PyVal K) (vt : Option VType)
    (actionable : Bool) (stepType : PyVal K) (stepDir : K) (stepSize : PyVal K) :
    Except Err (Elem K) := do
  pyAssert (decide (1 ≤ name.length))
  let values := npSort values
  pyAssert (decide (1 ≤ values.length))
  let vt := vt.getD (determineType values)
  let b ← parseBounds values bounds
  let st ← parseStepType stepType
  let s ← parseStepSize st stepSize
  let g ← mkGrid vt b.lb b.ub st s
  .ok { name := name, values := values, vtype := vt, actionable := actionable, bounds := b,
        stepType := st, stepSize := s, stepDir := sgn stepDir, flip := none, grid := g,
        cache := none, extra := [] }

/-- What `repr(A)` returns (recourse/action_set.py:157-163): the table, or nothing, which `repr` refuses with a
`TypeError`. -/
def ActionSet.repr (A : ActionSet K) : Except Err (List (String × List (PyVal K))) :=
  if A.printFlag then A.tabulate .set else .error .type

/-! ## Builders and auditors -/

/-- The setters of `print_flag` and `check_flag` of a builder (recourse/builder.py:110-117, 125-132). -/
def builderFlag : PyVal K → Except Err Bool
  | .none => .ok true
  | .bool b => .ok b
  | _ => .error .attribute

/-- `RecourseBuilder._check_rep` with the checks switched on (recourse/builder.py:92-103).  The intercept is always a
float (recourse/helper_functions.py:76). -/
def Builder.checkRep (b : Builder K) : Bool :=
  decide (b.coefs.length = b.aset.names.length)
    && (match b.x with | none => true | some x => decide (b.coefs.length = x.length))
    && b.aset.alignmentKnown
    && decide (0 ≤ b.minItems ∧ b.minItems ≤ b.maxItems ∧ b.maxItems ≤ b.coefs.length)

/-- `RecourseBuilder(..., print_flag = pf, check_flag = cf)` (recourse/builder.py:37-89): the flags are set (73-74) after
the alignment and before the point is assigned (85-86); `_check_rep` comes last (89). -/
def constructFlags (ext : Ext K) (s : Installed) (solver ct : Option String) (kw : ClfKwargs K)
    (A : ActionSet K) (x : Option (List K)) (pf cf : PyVal K) :
    ActionSet K × Except Err (AnyBuilder K × Bool × Bool) :=
  match construct ext s solver ct kw A none with
  | (A1, .error er) => (A1, .error er)
  | (A1, .ok _) =>
    match builderFlag pf with
    | .error er => (A1, .error er)                                      -- 73
    | .ok p =>
      match builderFlag cf with
      | .error er => (A1, .error er)                                    -- 74
      | .ok c =>
        match construct ext s solver ct kw A x with
        | (A2, .error er) => (A2, .error er)
        | (A2, .ok a) =>
          if !c || a.b.checkRep then (A2, .ok (a, p, c))                -- 89
          else (A2, .error .assertion)

end Recourse
