import Verif.Model.Element
import Verif.Model.Classifier
import Verif.Model.Constraints

/-!
# Model of `ActionSet` and `_ActionSlice` (recourse/action_set.py)
-/

namespace Recourse

variable {K : Type} [Field K] [LinearOrder K] [IsStrictOrderedRing K] [FloorRing K]

/-- `ActionSet` (recourse/action_set.py:19-373).  The dictionary `_elements` has the fixed key list
`_names`, so it is represented by the list of its values in that order; `_indices[n]` is the position
of `n` in `names`.  `extra` holds plain attributes. -/
structure ActionSet (K : Type) where
  names : List String
  elems : List (Elem K)
  cons : Constraints
  yDesired : Int
  extra : List (String × PyVal K)

/-- `_elements[n]` (recourse/action_set.py:115, 294). -/
def ActionSet.elem? (A : ActionSet K) (n : String) : Option (Elem K) :=
  if n ∈ A.names then A.elems[A.names.idxOf n]? else none

/-- `alignment_known` (recourse/action_set.py:271-276). -/
def ActionSet.alignmentKnown (A : ActionSet K) : Bool := A.elems.all Elem.aligned

/-- Column `j` of a matrix given by its rows (`X[:, j]`). -/
def column (X : List (List K)) (j : ℕ) : List K := X.map fun r => r.getD j 0

/-- `default_bounds = (1, 99, 'percentile')` (recourse/action_set.py:26). -/
def defaultBounds : PyVal K := .tuple [.int 1, .int 99, .str "percentile"]

/-- The element built for one column (recourse/action_set.py:83-91). -/
def mkColumn (X : List (List K)) (custom : List (String × PyVal K)) (dflt : PyVal K)
    (stepType : PyVal K) (j : ℕ) (n : String) : Except Err (Elem K) :=
  let v := column X j
  match determineType v with
  | .bool => mkElem n v ((custom.lookup n).getD (.tuple [.int 0, .int 1, .str "absolute"]))
      (some .bool) true (.str "absolute") 0 (.int 1)
  | .int => mkElem n v ((custom.lookup n).getD dflt) (some .int) true stepType 0 (.flt (1 / 100))
  | .float => mkElem n v ((custom.lookup n).getD dflt) (some .float) true stepType 0 (.flt (1 / 100))

/-- `ActionSet.__init__` (recourse/action_set.py:29-101) for a matrix given by its rows.
`y_desired` is an integer.  Simplification: `print_flag`/`check_flag` are omitted (checks on).  The
final `_check_rep` holds trivially: every new element is unaligned. -/
def mkActionSet (X : List (List K)) (names : List String) (yDesired : Int)
    (custom : List (String × PyVal K)) (dflt : PyVal K) (stepType : PyVal K) :
    Except Err (ActionSet K) := do
  pyAssert (checkVariableNames names)                                   -- 64
  pyAssert (decide (1 ≤ X.length))                                      -- 69
  pyAssert (X.all fun r => decide (r.length = names.length))            -- 70
  let elems ← names.zipIdx.mapM fun (p : String × ℕ) =>
    mkColumn X custom dflt stepType p.2 p.1                             -- 83-91
  pyAssert (decide (yDesired = -1 ∨ yDesired = 0 ∨ yDesired = 1))       -- 99
  .ok { names := names, elems := elems, cons := Constraints.init names,
        yDesired := if 0 < yDesired then 1 else -1, extra := [] }       -- 93-100

/-- `__setitem__(name, e)` (recourse/action_set.py:135-138); `none` stands for a value that is not an
`_ActionElement`.  Nothing else is checked: the name, the data and the alignment of the new element may be
anything.  Simplification: the set gets the value of the element; an element that is put into two sets would be
shared by them. -/
def ActionSet.setItem (A : ActionSet K) (n : String) (v : Option (Elem K)) : ActionSet K × Except Err Unit :=
  match v with
  | none => (A, .error .assertion)                                      -- 136
  | some e =>
    if n ∈ A.names then                                                 -- 137
      ({ A with elems := A.elems.set (A.names.idxOf n) e }, .ok ())     -- 138
    else (A, .error .assertion)

/-! ## Alignment -/

/-- `flip_direction` assignment on an element (recourse/action_set.py:716-719) with an integer. -/
def Elem.setFlip (e : Elem K) (f : Int) : Elem K := { e with flip := some (Int.sign f) }

/-- `set_alignment` after parsing (recourse/action_set.py:256-268). -/
def ActionSet.setAlignment (A : ActionSet K) (w : List K) : Except Err (ActionSet K) := do
  pyAssert (decide (w.length = A.names.length))                         -- 265
  let flips := w.map fun c => if 0 < A.yDesired then sgn c else -(sgn c) -- 266
  .ok { A with elems := List.zipWith Elem.setFlip A.elems flips }       -- 267-268

/-- `set_alignment(*args, **kwargs)` (recourse/action_set.py:256-268). -/
def ActionSet.setAlignmentArgs (A : ActionSet K) (args : List (ClfArg K)) (kw : ClfKwargs K) :
    Except Err (ActionSet K) := do
  let (w, _) ← parseClassifierArgs args kw
  A.setAlignment w

/-- `y_desired` setter (recourse/action_set.py:237-253). -/
def ActionSet.setYDesired (A : ActionSet K) (y : Int) : Except Err (ActionSet K) := do
  pyAssert (decide (y = -1 ∨ y = 0 ∨ y = 1))                            -- 246
  if y ≠ A.yDesired then                                                -- 248
    let A' := { A with yDesired := if 0 < y then 1 else -1 }            -- 249
    if A'.alignmentKnown then                                           -- 251-253
      .ok { A' with elems := A'.elems.map fun e => e.setFlip (-(e.flip.getD 0)) }
    else .ok A'
  else .ok A

/-! ## Constraints -/

/-- `add_constraint('subset_limit', ...)` (recourse/action_set.py:318-365). -/
def ActionSet.addConstraint (A : ActionSet K) (names : List String) (lb ub : Int)
    (id : Option String) : Except Err (ActionSet K × String) := do
  let (c, i) ← A.cons.add names lb ub id
  .ok ({ A with cons := c }, i)

/-- `remove_constraint(id)` (recourse/action_set.py:368-373). -/
def ActionSet.removeConstraint (A : ActionSet K) (id : String) : Except Err (ActionSet K) := do
  let c ← A.cons.remove id
  .ok { A with cons := c }

/-! ## Grid generation -/

/-- One entry of the dictionaries returned by `feasible_grid`. -/
structure GridEntry (K : Type) where
  name : String
  acts : List K
  pcts : List K
  deriving DecidableEq

/-- `_elements[n].feasible_values(x[j], return_actions, True, drop_suboptimal)`
(recourse/action_set.py:294, 296, 304). -/
def gridEntry (ext : Ext K) (n : String) (e : Elem K) (xj : K) (retActions drop : Bool) :
    Except Err (GridEntry K) := do
  let acts ← e.feasibleValues xj retActions drop
  let pcts ← e.feasiblePercentiles ext xj drop
  .ok ⟨n, acts, pcts⟩

/-- `output[n] = v` on an insertion-ordered dictionary (recourse/action_set.py:304). -/
def dictSetEntry (l : List (GridEntry K)) (g : GridEntry K) : List (GridEntry K) :=
  if l.any (fun c => decide (c.name = g.name)) then
    l.map (fun c => if c.name = g.name then g else c)
  else l ++ [g]

/-- Truth value of `compatible`: NaN (unaligned) is true (recourse/action_set.py:294, 600-601). -/
def Elem.compatTruthy (e : Elem K) : Bool := e.compatible.getD true

/-- The triples `(n, element, x[j])` over `_indices.items()` (recourse/action_set.py:294). -/
def ActionSet.cols (A : ActionSet K) (x : List K) : List (String × Elem K × K) :=
  A.names.zip (A.elems.zip x)

/-- The loop over constrained names (recourse/action_set.py:299-304). -/
def ActionSet.overrideLoop (ext : Ext K) (A : ActionSet K) (x : List K) (retActions : Bool) :
    List String → List (GridEntry K) → Except Err (List (GridEntry K))
  | [], out => .ok out
  | n :: ns, out => do
      let some e := A.elem? n | .error .key
      let some xj := x[A.names.idxOf n]? | .error .index
      let g ← gridEntry ext n e xj retActions false
      A.overrideLoop ext x retActions ns (dictSetEntry out g)

/-- `feasible_grid(x, return_actions, True, return_compatible)` (recourse/action_set.py:280-309), with
both returned dictionaries combined entry by entry. -/
def ActionSet.feasibleGrid (ext : Ext K) (A : ActionSet K) (x : List K)
    (retActions retCompatible : Bool) : Except Err (List (GridEntry K)) := do
  pyAssert (decide (x.length = A.names.length))                         -- 290
  let cols := (A.cols x).filter fun p => !retCompatible || p.2.1.compatTruthy
  let out ← cols.mapM fun p => gridEntry ext p.1 p.2.1 p.2.2 retActions true  -- 293-296
  if 0 < A.cons.items.length then                                       -- 299
    A.overrideLoop ext x retActions (ext.setOrder A.cons.flatNames) out
  else .ok out

/-- Side effect of `feasible_grid(..., return_percentiles = True)`: the interpolators of the visited
elements are cached (recourse/action_set.py:294-304, 794-798). -/
def ActionSet.touch (ext : Ext K) (A : ActionSet K) (retCompatible : Bool) : ActionSet K :=
  { A with elems := (A.names.zip A.elems).map fun p =>
      if (!retCompatible || p.2.compatTruthy) || decide (p.1 ∈ A.cons.flatNames)
      then p.2.fillCache ext else p.2 }

/-- The side effect of visiting features in order (recourse/action_set.py:294-304): each interpolator is cached,
until a feature raises (the assertion at 841 or a failing density estimate, 810). -/
def ActionSet.visit (ext : Ext K) : List ℕ → ActionSet K → ActionSet K
  | [], A => A
  | j :: js, A =>
      match A.elems[j]? with
      | none => A
      | some e =>
        if e.aligned && (e.table ext).toBool then
          ActionSet.visit ext js { A with elems := A.elems.set j (e.fillCache ext) }
        else A

/-- The features in the order in which `feasible_grid(x)` visits them (recourse/action_set.py:294, 299-304). -/
def ActionSet.visitOrder (ext : Ext K) (A : ActionSet K) : List ℕ :=
  (List.range A.names.length).filter (fun j => match A.elems[j]? with
    | some e => e.compatTruthy
    | none => false)
  ++ (if 0 < A.cons.items.length then (ext.setOrder A.cons.flatNames).map fun n => A.names.idxOf n else [])

/-! ## Indexing -/

/-- Index expressions `A[...]` (recourse/action_set.py:112-132).  `mask`/`ints` are boolean and integer
arrays; `slice` is `A[i:j]` with optional ends (step 1). -/
inductive PyIdx (K : Type)
  | str (s : String)
  | int (i : Int)
  | list (l : List (PyVal K))
  | mask (l : List Bool)
  | ints (l : List Int)
  | slice (i j : Option Int)
  | other

/-- `l[i]` of Python with negative positions; the position or `IndexError`. -/
def pyPos (n : ℕ) (i : Int) : Except Err ℕ :=
  if 0 ≤ i ∧ i < n then .ok i.toNat
  else if i < 0 ∧ -(n : Int) ≤ i then .ok (i + n).toNat
  else .error .index

/-- `self._elements[n]` as a position (`KeyError` if absent). -/
def ActionSet.posOfName (A : ActionSet K) (n : String) : Except Err ℕ :=
  if n ∈ A.names then .ok (A.names.idxOf n) else .error .key

/-- `self._names[j]` for an entry `j` of a list whose first entry is an `int`
(`True`/`False` are integers in Python; recourse/action_set.py:119-120). -/
def listIntPos (n : ℕ) : PyVal K → Except Err ℕ
  | .int i => pyPos n i
  | .bool b => pyPos n (if b then 1 else 0)
  | _ => .error .type

/-- Entry of a list of names (recourse/action_set.py:123-125). -/
def ActionSet.listNamePos (A : ActionSet K) : PyVal K → Except Err ℕ
  | .str s => A.posOfName s
  | _ => .error .key

/-- Clamping of slice ends. -/
def clampIdx (n : ℕ) (i : Int) : ℕ :=
  if i < 0 then (i + n).toNat else min i.toNat n

/-- `__getitem__` (recourse/action_set.py:112-132): the positions of the selected elements, in order.
For a list the test `isinstance(index[0], int)` comes first, and `bool` is a subclass of `int`, so the
branch for lists of `bool` (121-122) is dead code. -/
def ActionSet.getItem (A : ActionSet K) : PyIdx K → Except Err (List ℕ)
  | .str s => do .ok [← A.posOfName s]
  | .int i => do .ok [← pyPos A.names.length i]
  | .list [] => .error .index
  | .list l@(.int _ :: _) => l.mapM (listIntPos A.names.length)
  | .list l@(.bool _ :: _) => l.mapM (listIntPos A.names.length)
  | .list l@(.str _ :: _) => l.mapM A.listNamePos
  | .list _ => .error .unbound
  | .mask l =>
      if l.length = A.names.length then
        .ok ((List.range l.length).filter fun j => l.getD j false)
      else .error .index
  | .ints l => l.mapM (pyPos A.names.length)
  | .slice i j =>
      let n := A.names.length
      let lo := (i.map (clampIdx n)).getD 0
      let hi := (j.map (clampIdx n)).getD n
      .ok ((List.range n).filter fun k => decide (lo ≤ k ∧ k < hi))
  | .other => .error .index

/-! ## Attribute assignment -/

/-- `_expand_values(value, m)` (recourse/action_set.py:1074-1108).  A list of length 1 is repeated *as a
list* (1089).  Simplification: entries of arrays are treated like Python scalars. -/
def expandValues (m : ℕ) : PyVal K → Except Err (List (PyVal K))
  | .arr l =>
      if l.length = m then .ok l
      else if l.length = 1 then .ok (List.replicate m (l.headD .none))
      else .error .value
  | .list l =>
      if l.length = m then .ok l
      else if l.length = 1 then .ok (List.replicate m (.list l))
      else .error .value
  | .str s => .ok (List.replicate m (.str s))
  | .bool b => .ok (List.replicate m (.bool b))
  | .int i => .ok (List.replicate m (.int i))
  | .flt x => .ok (List.replicate m (.flt x))
  | _ => .error .value

/-- The assignment loop over elements (recourse/action_set.py:151-152): stops at the first error,
keeping the assignments already made. -/
def assignLoop (attr : String) : List (Elem K) → List (PyVal K) → List (Elem K) × Except Err Unit
  | e :: es, v :: vs =>
      match e.setAttr attr v with
      | .ok e' => let r := assignLoop attr es vs; (e' :: r.1, r.2)
      | .error er => (e :: es, .error er)
  | es, _ => (es, .ok ())

/-- The value of `y_desired` denoted by a Python number (`y in (-1, 0, 1)`, then `int(y)`;
recourse/action_set.py:246-247) or an array of one number; `none` if it is no number or a fraction.  Simplification: an array of
two or more, whose truth value is ambiguous (ValueError), is reported like any other wrong value. -/
def yValue : PyVal K → Option Int
  | .int y => some y
  | .bool b => some (if b then 1 else 0)
  | .flt x => if x = 1 then some 1 else if x = 0 then some 0 else if x = -1 then some (-1) else none
  | .arr [.int y] => some y
  | .arr [.bool b] => some (if b then 1 else 0)
  | .arr [.flt x] => if x = 1 then some 1 else if x = 0 then some 0 else if x = -1 then some (-1) else none
  | _ => none

/-- What `object.__setattr__` stores for an attribute of the set other than `y_desired` (recourse/action_set.py:154):
the setters of `check_flag` (171-174: an assertion) and `print_flag` (192-199: `None` stands for the default `True`), the
read-only properties `df`, `alignment_known` and `constraints` (202, 271, 314), and plain attributes. -/
def plainAttr (attr : String) (v : PyVal K) : Except Err (PyVal K) :=
  if attr = "check_flag" then
    match v with
    | .bool b => .ok (.bool b)
    | _ => .error .assertion
  else if attr = "print_flag" then
    match v with
    | .none => .ok (.bool true)
    | .bool b => .ok (.bool b)
    | _ => .error .attribute
  else if attr = "df" ∨ attr = "alignment_known" ∨ attr = "constraints" then .error .attribute
  else .ok v

/-- `A.attr = value` (recourse/action_set.py:148-154).  The state is returned also on errors.  The two flags are stored
among the plain attributes. -/
def ActionSet.setAttr (A : ActionSet K) (attr : String) (v : PyVal K) :
    ActionSet K × Except Err Unit :=
  if hasElemAttr attr then
    match expandValues A.names.length v with
    | .error er => (A, .error er)
    | .ok vs =>
        let r := assignLoop attr A.elems vs
        ({ A with elems := r.1 }, r.2)
  else if attr = "y_desired" then
    match yValue v with
    | some y => match A.setYDesired y with
        | .ok A' => (A', .ok ())
        | .error er => (A, .error er)
    | none => (A, .error .assertion)
  else match plainAttr attr v with
    | .ok v => ({ A with extra := (attr, v) :: A.extra }, .ok ())
    | .error er => (A, .error er)

/-- `_ActionSlice.__init__` and the loop of `_ActionSlice.__setattr__`
(recourse/action_set.py:1016-1033): positions are kept once, at their first occurrence, but with the
*last* index under which they occur. -/
def sliceEntries (pos : List ℕ) : List (ℕ × ℕ) :=
  pos.reverse.dedup.reverse.map fun p => (p, pos.length - 1 - pos.reverse.idxOf p)

/-- One pass of the slice assignment loop (recourse/action_set.py:1032-1033). -/
def sliceLoop (attr : String) (vs : List (PyVal K)) :
    List (ℕ × ℕ) → List (Elem K) → List (Elem K) × Except Err Unit
  | [], es => (es, .ok ())
  | (p, j) :: rest, es =>
      match es[p]?, vs[j]? with
      | some e, some v =>
          match e.setAttr attr v with
          | .ok e' => sliceLoop attr vs rest (es.set p e')
          | .error er => (es, .error er)
      | _, _ => (es, .error .index)

/-- `A[index].attr = value` for an index that yields an `_ActionSlice`
(recourse/action_set.py:1026-1033). -/
def ActionSet.setSliceAttr (A : ActionSet K) (idx : PyIdx K) (attr : String) (v : PyVal K) :
    ActionSet K × Except Err Unit :=
  match A.getItem idx with
  | .error er => (A, .error er)
  | .ok pos =>
      if hasElemAttr attr then
        let ents := sliceEntries pos
        match expandValues ents.length v with
        | .error er => (A, .error er)
        | .ok vs =>
            let r := sliceLoop attr vs ents A.elems
            ({ A with elems := r.1 }, r.2)
      else (A, .error .assertion)

/-- `A[name].attr = value` (recourse/action_set.py:114-115 and the element setters). -/
def ActionSet.setElemAttr (A : ActionSet K) (n : String) (attr : String) (v : PyVal K) :
    ActionSet K × Except Err Unit :=
  match A.elem? n with
  | none => (A, .error .key)
  | some e =>
      match e.setAttr attr v with
      | .ok e' => ({ A with elems := A.elems.set (A.names.idxOf n) e' }, .ok ())
      | .error er => (A, .error er)

end Recourse
