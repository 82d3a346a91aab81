import Verif.Py
import Mathlib.Data.List.Sort

/-!
# Model of `_ActionConstraints` (recourse/action_set.py:376-489)
-/

namespace Recourse

/-- `SubsetLimitConstraint` (recourse/action_set.py:377). -/
structure SubsetLimit where
  id : String
  names : List String
  indices : List ℕ
  lb : Int
  ub : Int
  deriving DecidableEq, Repr

/-- `_ActionConstraints` (recourse/action_set.py:380-389): variable names, id counter, and the
dictionary of constraints as a list in insertion order. -/
structure Constraints where
  names : List String
  counter : ℕ
  items : List SubsetLimit
  deriving DecidableEq, Repr

/-- `_ActionConstraints.__init__` (recourse/action_set.py:385-389). -/
def Constraints.init (names : List String) : Constraints := ⟨names, 0, []⟩

/-- `_check_variable_names` (recourse/action_set.py:1046-1057) for a list of strings. -/
def checkVariableNames (names : List String) : Bool :=
  decide (1 ≤ names.length) && names.all (fun n => decide (0 < n.length)) && decide names.Nodup

/-- `constrained_names` before `set(...)` (recourse/action_set.py:402-415); every constraint is a
`SubsetLimitConstraint`, so the optional filter keeps all. -/
def Constraints.flatNames (c : Constraints) : List String := (c.items.map (·.names)).flatten

/-- `remove(id)` (recourse/action_set.py:418-428). -/
def Constraints.remove (c : Constraints) (id : String) : Except Err Constraints := do
  pyAssert (decide (0 < id.length))
  if c.items.any (fun k => decide (k.id = id)) then
    .ok { c with items := c.items.filter (fun k => decide (k.id ≠ id)) }
  else .error .value

/-- `self._constraints[id] = k` on an insertion-ordered dictionary (recourse/action_set.py:484). -/
def dictSetCons (l : List SubsetLimit) (k : SubsetLimit) : List SubsetLimit :=
  if l.any (fun c => decide (c.id = k.id)) then
    l.map (fun c => if c.id = k.id then k else c)
  else l ++ [k]

/-- The sorting of `(names, indices)` by index (recourse/action_set.py:475-477). -/
def sortByIndex (l : List (ℕ × String)) : List (ℕ × String) :=
  l.insertionSort (fun a b => a.1 ≤ b.1)

/-- `add_subset_limit_constraint(names, lb, ub, id)` (recourse/action_set.py:430-489).  `id = none` is
`None`.  Simplification: `lb`, `ub` are integers (`int(lb)` is the identity); the overwriting warning
is not modelled. -/
def Constraints.add (c : Constraints) (names : List String) (lb ub : Int) (id : Option String) :
    Except Err (Constraints × String) := do
  let id := id.getD (toString c.counter)                               -- 458
  pyAssert (decide (0 < id.length))                                    -- 460
  pyAssert (checkVariableNames names)                                  -- 463
  pyAssert (decide (2 ≤ names.length ∧ names.length ≤ c.names.length)) -- 464
  if names.all (fun n => decide (n ∈ c.names)) then                    -- 465: `.index` or ValueError
    let n : Int := c.names.length
    pyAssert (decide (0 ≤ lb ∧ lb ≤ n))                                -- 470
    pyAssert (decide (0 ≤ ub ∧ ub ≤ n))                                -- 471
    pyAssert (decide (lb ≤ ub))                                        -- 472
    let sorted := sortByIndex (names.map fun s => (c.names.idxOf s, s)) -- 475-477
    let k : SubsetLimit :=
      { id := id, names := sorted.map (·.2), indices := sorted.map (·.1), lb := lb, ub := ub }
    .ok ({ c with items := dictSetCons c.items k, counter := c.counter + 1 }, id)  -- 484-489
  else .error .value

end Recourse
