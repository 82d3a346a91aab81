import Verif.Model.Flipset
import Verif.Model.Auditor

/-!
# Specification vocabulary

Notions used in the statements of the properties.  They describe what a user sees (attributes of
features, points, scores) and do not use the grid, build or solver code of the model.
-/

namespace Recourse

variable {K : Type} [Field K] [LinearOrder K] [IsStrictOrderedRing K] [FloorRing K]

/-! ## Features -/

/-- Lower end of the grid: `lb`, rounded down for integer features. -/
def specLo (e : Elem K) : K := if e.vtype = .int then ((⌊e.bounds.lb⌋ : ℤ) : K) else e.bounds.lb

/-- Upper end of the request: `ub`, rounded up for integer features. -/
def specHi (e : Elem K) : K := if e.vtype = .int then ((⌈e.bounds.ub⌉ : ℤ) : K) else e.bounds.ub

/-- Width of a step before rounding: `step_size`, or that fraction of the range. -/
def specRawStep (e : Elem K) : K :=
  if e.stepType = .relative then e.stepSize * (specHi e - specLo e) else e.stepSize

/-- Effective step: rounded up for integer features. -/
def specStep (e : Elem K) : K :=
  if e.vtype = .int then ((⌈specRawStep e⌉ : ℤ) : K) else specRawStep e

/-- The grid of a feature is the arithmetic progression from its lower end with the effective step, up
to the first point that reaches the upper end. -/
def GridShape (e : Elem K) : Prop :=
  0 < specStep e ∧ ∃ n : ℕ,
    e.grid.vals = (List.range (n + 1)).map (fun (i : ℕ) => specLo e + (i : K) * specStep e) ∧
    specHi e ≤ specLo e + (n : K) * specStep e ∧
    specLo e + (n : K) * specStep e < specHi e + specStep e

/-- Histories of a feature: created by the constructor, then any accepted attribute assignments,
`update_grid()` calls, percentile evaluations (which fill the cache) and `update_interpolator` calls. -/
inductive Elem.Reachable (ext : Ext K) : Elem K → Prop
  | mk {name : String} {values : List K} {bounds : PyVal K} {vt : Option VType} {act : Bool}
      {st : PyVal K} {sd : K} {ss : PyVal K} {e : Elem K}
      (h : mkElem name values bounds vt act st sd ss = .ok e) : Elem.Reachable ext e
  | set {e e' : Elem K} {attr : String} {v : PyVal K} (hr : Elem.Reachable ext e)
      (h : e.setAttr attr v = .ok e') : Elem.Reachable ext e'
  | update {e e' : Elem K} (hr : Elem.Reachable ext e) (h : e.updateGrid = .ok e') :
      Elem.Reachable ext e'
  | touch {e : Elem K} (hr : Elem.Reachable ext e) : Elem.Reachable ext (e.fillCache ext)
  | interp {e e' : Elem K} {left right : K} (hr : Elem.Reachable ext e)
      (h : e.updateInterpolator ext left right = .ok e') : Elem.Reachable ext e'

/-- Histories of a feature in which every `update_grid()` happens before the first percentile evaluation or is
followed by `update_interpolator()`. -/
inductive Elem.Synced (ext : Ext K) : Elem K → Prop
  | mk {name : String} {values : List K} {bounds : PyVal K} {vt : Option VType} {act : Bool}
      {st : PyVal K} {sd : K} {ss : PyVal K} {e : Elem K}
      (h : mkElem name values bounds vt act st sd ss = .ok e) : Elem.Synced ext e
  | set {e e' : Elem K} {attr : String} {v : PyVal K} (hr : Elem.Synced ext e)
      (h : e.setAttr attr v = .ok e') : Elem.Synced ext e'
  | update {e e' : Elem K} (hr : Elem.Synced ext e) (hc : e.cache = none) (h : e.updateGrid = .ok e') :
      Elem.Synced ext e'
  | touch {e : Elem K} (hr : Elem.Synced ext e) : Elem.Synced ext (e.fillCache ext)
  | interp {e e' : Elem K} (hr : Elem.Reachable ext e)
      (h : e.updateInterpolator ext pbuf pbuf = .ok e') : Elem.Synced ext e'

/-- Histories of an action set: created by the constructor, then any API calls: alignment, `y_desired`
assignments, constraint requests, attribute assignments on the whole set, on slices and on single
features (also failing ones, which may leave part of the assignments done), `update_grid()` and
percentile evaluations and `update_interpolator` calls of features, and replacement of a feature by another
one of the same name. -/
inductive ActionSet.Reachable (ext : Ext K) : ActionSet K → Prop
  | mk {X : List (List K)} {names : List String} {y : Int} {custom : List (String × PyVal K)}
      {dflt st : PyVal K} {A : ActionSet K} (h : mkActionSet X names y custom dflt st = .ok A) :
      ActionSet.Reachable ext A
  | align {A A' : ActionSet K} {w : List K} (hr : ActionSet.Reachable ext A)
      (h : A.setAlignment w = .ok A') : ActionSet.Reachable ext A'
  | setY {A A' : ActionSet K} {y : Int} (hr : ActionSet.Reachable ext A)
      (h : A.setYDesired y = .ok A') : ActionSet.Reachable ext A'
  | addC {A A' : ActionSet K} {names : List String} {lb ub : Int} {id : Option String} {i : String}
      (hr : ActionSet.Reachable ext A) (h : A.addConstraint names lb ub id = .ok (A', i)) :
      ActionSet.Reachable ext A'
  | remC {A A' : ActionSet K} {id : String} (hr : ActionSet.Reachable ext A)
      (h : A.removeConstraint id = .ok A') : ActionSet.Reachable ext A'
  | setAttr {A : ActionSet K} (attr : String) (v : PyVal K) (hr : ActionSet.Reachable ext A) :
      ActionSet.Reachable ext (A.setAttr attr v).1
  | setSlice {A : ActionSet K} (idx : PyIdx K) (attr : String) (v : PyVal K)
      (hr : ActionSet.Reachable ext A) : ActionSet.Reachable ext (A.setSliceAttr idx attr v).1
  | setElem {A : ActionSet K} (n attr : String) (v : PyVal K) (hr : ActionSet.Reachable ext A) :
      ActionSet.Reachable ext (A.setElemAttr n attr v).1
  | updateGrid {A : ActionSet K} {j : ℕ} {e e' : Elem K} (hr : ActionSet.Reachable ext A)
      (hj : A.elems[j]? = some e) (h : e.updateGrid = .ok e') :
      ActionSet.Reachable ext { A with elems := A.elems.set j e' }
  | percentile {A : ActionSet K} {j : ℕ} {e : Elem K} (hr : ActionSet.Reachable ext A)
      (hj : A.elems[j]? = some e) :
      ActionSet.Reachable ext { A with elems := A.elems.set j (e.fillCache ext) }
  | interp {A : ActionSet K} {j : ℕ} {e e' : Elem K} {left right : K} (hr : ActionSet.Reachable ext A)
      (hj : A.elems[j]? = some e) (h : e.updateInterpolator ext left right = .ok e') :
      ActionSet.Reachable ext { A with elems := A.elems.set j e' }
  | touch {A : ActionSet K} (rc : Bool) (hr : ActionSet.Reachable ext A) :
      ActionSet.Reachable ext (A.touch ext rc)
  | setItem {A : ActionSet K} (n : String) {e : Elem K} (hr : ActionSet.Reachable ext A)
      (he : e.Reachable ext) (hn : e.name = n) : ActionSet.Reachable ext (A.setItem n (some e)).1

/-- A step direction `d` allows going from `x` to `v`: `+1` forbids decreases, `-1` increases. -/
def DirOk (d : Int) (x v : K) : Prop := (0 < d → x ≤ v) ∧ (d < 0 → v ≤ x)

/-- The values a feature may take after an action at `x`: `x` itself, or, for actionable features, a
grid value allowed by the step direction. -/
def Permitted (e : Elem K) (x v : K) : Prop :=
  v = x ∨ (e.actionable = true ∧ v ∈ e.grid.vals ∧ DirOk e.stepDir x v)

/-- `x` is a value the feature's grid type can hold (integral for integer grids). -/
def FitsGrid (e : Elem K) (x : K) : Prop := e.grid.isInt = true → ∃ z : ℤ, (z : K) = x

/-! ## Costs -/

/-- `percentile(v)` of a feature (recourse/action_set.py:820-821). -/
def Elem.percentile (ext : Ext K) (e : Elem K) (v : K) : Except Err K := do
  let t ← e.table ext
  .ok (t.eval v)

/-- `c` is the cost of moving a feature from `x` to `v`: the percentile shift, or for cost type `local`
the log ratio of the fractions above the lower and the higher value. -/
def MoveCost (ext : Ext K) (ct : CostType) (e : Elem K) (x v c : K) : Prop :=
  ∃ p q, e.percentile ext x = .ok p ∧ e.percentile ext v = .ok q ∧
    c = if ct = .loc then ext.log ((1 - min p q) / (1 - max p q)) else |q - p|

/-- `cs` lists the costs of the changes `a` at `x`, with 0 for unchanged features. -/
def ActionCosts (ext : Ext K) (ct : CostType) (A : ActionSet K) (x a cs : List K) : Prop :=
  cs.length = x.length ∧ ∀ (j : ℕ) (e : Elem K) (xj aj c : K), A.elems[j]? = some e → x[j]? = some xj →
    a[j]? = some aj → cs[j]? = some c →
    (aj = 0 → c = 0) ∧ (aj ≠ 0 → MoveCost ext ct e xj (xj + aj) c)

/-- What is assumed of the logarithm: positive exactly above 1. -/
def LogOk (ext : Ext K) : Prop := ∀ r : K, 0 < r → (0 < ext.log r ↔ 1 < r)

/-! ## Builders -/

/-- Histories of a builder: created for a reachable action set, then any number of assignments of `x`
(successful or not), fits, enumerations and item limits (set in either way), with any solvers; in between the user may bring
the shared action set into any other reachable state with the same columns. -/
inductive Builder.Reachable (ext : Ext K) : Builder K → Prop
  | mk {be : Backend} {ct : CostType} {A : ActionSet K} {w : List K} {t : K} {b : Builder K}
      (hA : A.Reachable ext) (h : mkBuilder be ct A w t = .ok b) : Builder.Reachable ext b
  | setX {b : Builder K} (x : List K) (hr : Builder.Reachable ext b) : Builder.Reachable ext (b.setX ext x).1
  | fit {b b' : Builder K} {o : Oracle K} {i : Info K} (hr : Builder.Reachable ext b)
      (h : b.fit o = .ok (b', i)) : Builder.Reachable ext b'
  | populate {b b' : Builder K} {o : Oracle K} {et : EnumType} {fuel : ℕ} {total : Option ℕ}
      {l : List (Info K)} (hr : Builder.Reachable ext b)
      (h : b.populate o et fuel total = .ok (some (b', l))) : Builder.Reachable ext b'
  | limits {b : Builder K} (lo hi : Option Int) (hr : Builder.Reachable ext b) :
      Builder.Reachable ext (b.setItemLimits lo hi).1
  | minItems {b : Builder K} (k : Option Int) (hr : Builder.Reachable ext b) :
      Builder.Reachable ext (b.setMinItems k).1
  | maxItems {b : Builder K} (k : Option Int) (hr : Builder.Reachable ext b) :
      Builder.Reachable ext (b.setMaxItems k).1
  | user {b : Builder K} {A : ActionSet K} (hr : Builder.Reachable ext b) (hA : A.Reachable ext)
      (hn : A.names = b.aset.names) : Builder.Reachable ext { b with aset := A }

/-- What can happen to a builder while its point stays the same: fits, enumerations, and changes of the
shared action set. -/
inductive Builder.After (o : Oracle K) (b0 : Builder K) : Builder K → Prop
  | refl : Builder.After o b0 b0
  | fit {b b' : Builder K} {i : Info K} (hr : Builder.After o b0 b) (h : b.fit o = .ok (b', i)) :
      Builder.After o b0 b'
  | populate {b b' : Builder K} {et : EnumType} {fuel : ℕ} {total : Option ℕ} {l : List (Info K)}
      (hr : Builder.After o b0 b) (h : b.populate o et fuel total = .ok (some (b', l))) :
      Builder.After o b0 b'
  | user {b : Builder K} (A : ActionSet K) (hr : Builder.After o b0 b) :
      Builder.After o b0 { b with aset := A }

/-- Use of a builder with an action set that the user leaves alone: assignments of `x` (successful or
not), fits and enumerations, with any solvers. -/
inductive Builder.Used (ext : Ext K) (b0 : Builder K) : Builder K → Prop
  | refl : Builder.Used ext b0 b0
  | setX {b : Builder K} (x : List K) (hr : Builder.Used ext b0 b) : Builder.Used ext b0 (b.setX ext x).1
  | fit {b b' : Builder K} {o : Oracle K} {i : Info K} (hr : Builder.Used ext b0 b)
      (h : b.fit o = .ok (b', i)) : Builder.Used ext b0 b'
  | populate {b b' : Builder K} {o : Oracle K} {et : EnumType} {fuel : ℕ} {total : Option ℕ}
      {l : List (Info K)} (hr : Builder.Used ext b0 b)
      (h : b.populate o et fuel total = .ok (some (b', l))) : Builder.Used ext b0 b'

/-- Repeated fits at the same point, with changes of the shared action set in between. -/
inductive Builder.Refitted (o : Oracle K) (b0 : Builder K) : Builder K → Prop
  | refl : Builder.Refitted o b0 b0
  | fit {b b' : Builder K} {i : Info K} (hr : Builder.Refitted o b0 b) (h : b.fit o = .ok (b', i)) :
      Builder.Refitted o b0 b'
  | user {b : Builder K} (A : ActionSet K) (hr : Builder.Refitted o b0 b) :
      Builder.Refitted o b0 { b with aset := A }

/-- Number of features an action vector changes. -/
def numChanged (a : List K) : ℕ := a.countP fun v => decide (v ≠ 0)

/-- The score `w · (x + a) + t` is on the closed desired side of 0. -/
def ReachesScore (y : Int) (w : List K) (t : K) (x a : List K) : Prop :=
  if 0 < y then 0 ≤ dot w (vadd x a) + t else dot w (vadd x a) + t ≤ 0

/-- Adding `a` to `x` gives every feature a value it may take. -/
def PermittedAction (A : ActionSet K) (x a : List K) : Prop :=
  a.length = x.length ∧ ∀ (j : ℕ) (e : Elem K) (xj aj : K), A.elems[j]? = some e → x[j]? = some xj →
    a[j]? = some aj → Permitted e xj (xj + aj)

/-- `a` is actionable recourse at `x` that changes between `lo` and `hi` features. -/
structure IsRecourse (A : ActionSet K) (w : List K) (t : K) (x a : List K) (lo hi : ℕ) : Prop where
  permitted : PermittedAction A x a
  min : lo ≤ numChanged a
  max : numChanged a ≤ hi
  score : ReachesScore A.yDesired w t x a

/-- Number of features among `names` that are nonzero after the action. -/
def numNonzero (A : ActionSet K) (x a : List K) (names : List String) : ℕ :=
  names.countP fun n => decide ((vadd x a).getD (A.names.idxOf n) 0 ≠ 0)

/-- The feature `n` is listed in some subset limit. -/
def Listed (A : ActionSet K) (n : String) : Prop := ∃ k ∈ A.cons.items, n ∈ k.names

/-- After the action, the number of nonzero features of every subset limit lies between its bounds. -/
def RespectsLimits (A : ActionSet K) (x a : List K) : Prop := ∀ k ∈ A.cons.items,
  k.lb ≤ (numNonzero A x a k.names : ℕ) ∧ ((numNonzero A x a k.names : ℕ) : Int) ≤ k.ub

/-- `a` is actionable recourse that respects the subset limits. -/
structure IsLimitedRecourse (A : ActionSet K) (w : List K) (t : K) (x a : List K) (lo hi : ℕ) : Prop
    extends IsRecourse A w t x a lo hi where
  limits : RespectsLimits A x a

/-- Column `j` can be used at `x`: it is compatible and has a permitted change, towards the desired prediction
if it is not listed in a subset limit. -/
def UsableColumn (A : ActionSet K) (x : List K) (j : ℕ) : Prop :=
  ∀ (n : String) (e : Elem K) (xj : K), A.names[j]? = some n → A.elems[j]? = some e → x[j]? = some xj →
    e.compatible ≠ some false ∧ FitsGrid e xj ∧ ∃ v, v ≠ xj ∧ Permitted e xj v ∧
      (¬ Listed A n → ∀ d, e.flip = some d → DirOk d xj v)

/-- Situations in which subset limits mean what they say (see C35): `x` is nonnegative at the listed
features, and all columns up to the last listed one can be used.  Without subset limits this always holds. -/
def LimitsApply (A : ActionSet K) (x : List K) : Prop :=
  ∀ (l : ℕ) (n : String), A.names[l]? = some n → Listed A n →
    (∀ xl, x[l]? = some xl → 0 ≤ xl) ∧ ∀ j ≤ l, UsableColumn A x j

/-- Column `j` has a change to offer at `x`: a permitted value other than the current one, on the side of the flip direction
if the feature is not listed in a subset limit. -/
def HasChange (A : ActionSet K) (x : List K) (j : ℕ) : Prop :=
  ∃ (n : String) (e : Elem K) (xj v : K), A.names[j]? = some n ∧ A.elems[j]? = some e ∧ x[j]? = some xj ∧ v ≠ xj ∧
    Permitted e xj v ∧ (¬ Listed A n → ∀ d, e.flip = some d → DirOk d xj v)

/-- Column `j` is not ruled out as incompatible with the classifier the set was aligned to. -/
def CompatibleColumn (A : ActionSet K) (j : ℕ) : Prop := ∀ e, A.elems[j]? = some e → e.compatible ≠ some false

open Classical in
/-- The columns the program knows, in its order: first the compatible columns that have a change to offer, in column order;
then the other listed columns that have a change to offer, in the order in which Python goes through the set of listed names. -/
noncomputable def programColumns (ext : Ext K) (A : ActionSet K) (x : List K) : List ℕ :=
  (List.range A.names.length).filter (fun j => decide (CompatibleColumn A j ∧ HasChange A x j)) ++
  ((ext.setOrder A.cons.flatNames).map fun n => A.names.idxOf n).filter
    (fun j => decide (¬ CompatibleColumn A j ∧ HasChange A x j))

/-- After the action, column `j` is where the program's limits want it: a listed feature of positive value is zero, any other
feature is unchanged. -/
def AtRest (A : ActionSet K) (x a : List K) (j : ℕ) : Prop :=
  ∃ n xj aj, A.names[j]? = some n ∧ x[j]? = some xj ∧ a[j]? = some aj ∧
    (Listed A n ∧ 0 < xj → xj + aj = 0) ∧ (¬ (Listed A n ∧ 0 < xj) → aj = 0)

open Classical in
/-- What a limit on `names` counts: the columns of the names are taken as positions in the list of the columns of the program, and
the columns found there that are not at rest are counted. -/
noncomputable def numMoved (ext : Ext K) (A : ActionSet K) (x a : List K) (names : List String) : ℕ :=
  names.countP fun n => decide (∃ j, (programColumns ext A x)[A.names.idxOf n]? = some j ∧ ¬ AtRest A x a j)

/-- The subset limits as the program enforces them. -/
def RespectsPositions (ext : Ext K) (A : ActionSet K) (x a : List K) : Prop := ∀ k ∈ A.cons.items,
  k.lb ≤ (numMoved ext A x a k.names : ℕ) ∧ ((numMoved ext A x a k.names : ℕ) : Int) ≤ k.ub

/-- The program has as many columns as the subset limits ask for. -/
def PositionsExist (ext : Ext K) (A : ActionSet K) (x : List K) : Prop := ∀ k ∈ A.cons.items, ∀ n ∈ k.names,
  A.names.idxOf n < (programColumns ext A x).length

/-- Two action vectors change the same features. -/
def SameFeatures (a a' : List K) : Prop := ∀ j : ℕ, a.getD j 0 = 0 ↔ a'.getD j 0 = 0

/-- No feature is changed by both action vectors. -/
def DisjointFeatures (a a' : List K) : Prop := ∀ j : ℕ, a.getD j 0 = 0 ∨ a'.getD j 0 = 0

/-- Two action vectors leave the same columns at rest (`AtRest`). -/
def SameAtRest (A : ActionSet K) (x a a' : List K) : Prop := ∀ j < A.names.length, (AtRest A x a j ↔ AtRest A x a' j)

/-- What an enumeration asks of a later action vector `a'` after it has reported `a`: with `mutually_exclusive` the two change disjoint
sets of features; with `distinct_subsets` they change different sets of features (Python-MIP), or leave different sets of columns at
rest (CPLEX). -/
def EnumApart (et : EnumType) (be : Backend) (A : ActionSet K) (x a a' : List K) : Prop :=
  match et, be with
  | .mutuallyExclusive, _ => DisjointFeatures a a'
  | .distinctSubsets, .pymip => ¬ SameFeatures a a'
  | .distinctSubsets, .cpx => ¬ SameAtRest A x a a'

/-- Every change moves the score towards the desired side, except changes of features listed in a subset
limit, which may move in any direction. -/
def Useful (A : ActionSet K) (w a : List K) : Prop :=
  ∀ (j : ℕ) (n : String) (wj aj : K), A.names[j]? = some n → w[j]? = some wj → a[j]? = some aj → aj ≠ 0 →
    Listed A n ∨ 0 < (A.yDesired : K) * (wj * aj)

/-- Some of the changes of `a` are left out in `a'`, at least one, and the others are the same. -/
def ProperPart (a' a : List K) : Prop :=
  a'.length = a.length ∧ (∀ j : ℕ, a'.getD j 0 = 0 ∨ a'.getD j 0 = a.getD j 0) ∧ a' ≠ a

/-- `A'` differs from `A` by lifting restrictions only: the features have the same grids and percentile scores, features
that could be changed still can, with the same step direction or none, and every subset limit of `A'` is at least as wide as some
limit of `A` on the same features. -/
structure Relaxes (ext : Ext K) (A A' : ActionSet K) : Prop where
  y : A'.yDesired = A.yDesired
  names : A'.names = A.names
  feature : ∀ (j : ℕ) (e e' : Elem K), A.elems[j]? = some e → A'.elems[j]? = some e' →
    e'.grid.vals = e.grid.vals ∧ (∀ v, e'.percentile ext v = e.percentile ext v) ∧
    (e.actionable = true → e'.actionable = true ∧ (e'.stepDir = 0 ∨ e'.stepDir = e.stepDir))
  limits : ∀ k' ∈ A'.cons.items, ∃ k ∈ A.cons.items, k.names = k'.names ∧ k'.lb ≤ k.lb ∧ k.ub ≤ k'.ub

/-- Two reported items have action vectors in relation `R`. -/
def Info.Related (R : List K → List K → Prop) (i i' : Info K) : Prop :=
  ∃ a a', i.actions = some a ∧ i'.actions = some a' ∧ R a a'

/-- Number of actionable features. -/
def numActionable (A : ActionSet K) : ℕ := A.elems.countP fun e => e.actionable

/-- Regular situations for optimality statements: no subset limits, or limits that apply (`LimitsApply`); the action set is aligned with the
builder's own classifier; `min_items` is at most 1; and for every actionable feature the point is a value
its grid can hold, no grid value is within numpy's tolerance `1e-8` of the point without being equal to
it, and the percentile score is strictly increasing on the grid values and the point (and below 1 when
logarithms are taken).  See C08 for when percentiles behave like this, `regular_of_range` for a simpler
sufficient condition. -/
structure Regular (ext : Ext K) (b : Builder K) (x : List K) : Prop where
  limits : LimitsApply b.aset x
  aligned : ∀ (j : ℕ) (e : Elem K) (w : K), b.aset.elems[j]? = some e → b.coefs[j]? = some w →
    e.flip = some (b.aset.yDesired * sgn w)
  minItems : b.minItems ≤ 1
  fits : ∀ (j : ℕ) (e : Elem K) (xj : K), b.aset.elems[j]? = some e → x[j]? = some xj →
    e.actionable = true → FitsGrid e xj
  apart : ∀ (j : ℕ) (e : Elem K) (xj v : K), b.aset.elems[j]? = some e → x[j]? = some xj →
    e.actionable = true → v ∈ e.grid.vals → v ≠ xj → 1 / 10 ^ 8 < |v - xj|
  pct : ∀ (j : ℕ) (e : Elem K) (xj u v p q : K), b.aset.elems[j]? = some e → x[j]? = some xj →
    e.actionable = true → (u = xj ∨ u ∈ e.grid.vals) → (v = xj ∨ v ∈ e.grid.vals) → u < v →
    e.percentile ext u = .ok p → e.percentile ext v = .ok q → p < q
  below : b.costType = .loc → ∀ (j : ℕ) (e : Elem K) (xj v q : K), b.aset.elems[j]? = some e →
    x[j]? = some xj → e.actionable = true → (v = xj ∨ v ∈ e.grid.vals) → e.percentile ext v = .ok q → q < 1

/-- Regular situations without the condition on alignment (see `Regular` for the other conditions). -/
structure Situated (ext : Ext K) (b : Builder K) (x : List K) : Prop where
  limits : LimitsApply b.aset x
  minItems : b.minItems ≤ 1
  fits : ∀ (j : ℕ) (e : Elem K) (xj : K), b.aset.elems[j]? = some e → x[j]? = some xj →
    e.actionable = true → FitsGrid e xj
  apart : ∀ (j : ℕ) (e : Elem K) (xj v : K), b.aset.elems[j]? = some e → x[j]? = some xj →
    e.actionable = true → v ∈ e.grid.vals → v ≠ xj → 1 / 10 ^ 8 < |v - xj|
  pct : ∀ (j : ℕ) (e : Elem K) (xj u v p q : K), b.aset.elems[j]? = some e → x[j]? = some xj →
    e.actionable = true → (u = xj ∨ u ∈ e.grid.vals) → (v = xj ∨ v ∈ e.grid.vals) → u < v →
    e.percentile ext u = .ok p → e.percentile ext v = .ok q → p < q
  below : b.costType = .loc → ∀ (j : ℕ) (e : Elem K) (xj v q : K), b.aset.elems[j]? = some e →
    x[j]? = some xj → e.actionable = true → (v = xj ∨ v ∈ e.grid.vals) → e.percentile ext v = .ok q → q < 1

/-- Grids and percentiles are in order at `x`, and nothing else is assumed (see `Regular`). -/
structure Placed (ext : Ext K) (b : Builder K) (x : List K) : Prop where
  fits : ∀ (j : ℕ) (e : Elem K) (xj : K), b.aset.elems[j]? = some e → x[j]? = some xj →
    e.actionable = true → FitsGrid e xj
  apart : ∀ (j : ℕ) (e : Elem K) (xj v : K), b.aset.elems[j]? = some e → x[j]? = some xj →
    e.actionable = true → v ∈ e.grid.vals → v ≠ xj → 1 / 10 ^ 8 < |v - xj|
  pct : ∀ (j : ℕ) (e : Elem K) (xj u v p q : K), b.aset.elems[j]? = some e → x[j]? = some xj →
    e.actionable = true → (u = xj ∨ u ∈ e.grid.vals) → (v = xj ∨ v ∈ e.grid.vals) → u < v →
    e.percentile ext u = .ok p → e.percentile ext v = .ok q → p < q
  below : b.costType = .loc → ∀ (j : ℕ) (e : Elem K) (xj v q : K), b.aset.elems[j]? = some e →
    x[j]? = some xj → e.actionable = true → (v = xj ∨ v ∈ e.grid.vals) → e.percentile ext v = .ok q → q < 1

theorem Situated.placed {ext : Ext K} {b : Builder K} {x : List K} (h : Situated ext b x) : Placed ext b x :=
  ⟨h.fits, h.apart, h.pct, h.below⟩

theorem Regular.situated {ext : Ext K} {b : Builder K} {x : List K} (h : Regular ext b x) : Situated ext b x :=
  ⟨h.limits, h.minItems, h.fits, h.apart, h.pct, h.below⟩

/-- The recorded flip direction `d` of a feature agrees with its coefficient `w`: it points to the side on
which the score moves towards the desired prediction `y`. -/
def AgreesWith (y : Int) (w : K) (e : Elem K) : Prop := ∃ d, e.flip = some d ∧ 0 < d * (y * sgn w)

/-- `a` changes only features that are listed in a subset limit, or whose recorded flip direction agrees with
the builder's own classifier. -/
def FollowsAlignment (b : Builder K) (a : List K) : Prop :=
  ∀ (j : ℕ) (n : String) (e : Elem K) (w v : K), b.aset.names[j]? = some n → b.aset.elems[j]? = some e →
    b.coefs[j]? = some w → a[j]? = some v → v ≠ 0 → Listed b.aset n ∨ AgreesWith b.aset.yDesired w e

/-- The score at `x` is strictly on the undesired side. -/
def Denied (b : Builder K) (x : List K) : Prop := (b.aset.yDesired : K) * (dot b.coefs x + b.intercept) < 0

/-- `g` is the cost of some permitted change of some feature at `x`. -/
def SomeMoveCost (ext : Ext K) (b : Builder K) (x : List K) (g : K) : Prop :=
  ∃ (j : ℕ) (e : Elem K) (xj v : K), b.aset.elems[j]? = some e ∧ x[j]? = some xj ∧ Permitted e xj v ∧
    v ≠ xj ∧ MoveCost ext b.costType e xj v g

/-- `γ` is a cost step: the difference of the costs of two permitted values of one feature, both on the
useful side of the point or of a feature listed in a subset limit (the first may be the point itself). -/
def CostStep (ext : Ext K) (b : Builder K) (x : List K) (γ : K) : Prop :=
  ∃ (j : ℕ) (n : String) (e : Elem K) (xj w u v g h : K), b.aset.names[j]? = some n ∧
    b.aset.elems[j]? = some e ∧ x[j]? = some xj ∧
    b.coefs[j]? = some w ∧ Permitted e xj u ∧ Permitted e xj v ∧ v ≠ xj ∧
    (u = xj ∨ Listed b.aset n ∨ 0 < (b.aset.yDesired : K) * (w * (u - xj))) ∧
    (Listed b.aset n ∨ 0 < (b.aset.yDesired : K) * (w * (v - xj))) ∧
    MoveCost ext b.costType e xj u g ∧ MoveCost ext b.costType e xj v h ∧ g < h ∧ γ = h - g

/-- A value the program offers for column `j` at `x`: permitted, of a compatible or listed feature, and on the side of the flip direction
unless the feature is listed. -/
def OfferedValue (A : ActionSet K) (j : ℕ) (n : String) (e : Elem K) (xj v : K) : Prop :=
  Permitted e xj v ∧ (CompatibleColumn A j ∨ Listed A n) ∧ (¬ Listed A n → ∀ d, e.flip = some d → DirOk d xj v)

/-- `γ` is the difference of the costs of two values that the program offers for one feature (the first may be the point itself). -/
def OfferedStep (ext : Ext K) (b : Builder K) (x : List K) (γ : K) : Prop :=
  ∃ (j : ℕ) (n : String) (e : Elem K) (xj u v g h : K), b.aset.names[j]? = some n ∧
    b.aset.elems[j]? = some e ∧ x[j]? = some xj ∧ v ≠ xj ∧ (u = xj ∨ OfferedValue b.aset j n e xj u) ∧
    OfferedValue b.aset j n e xj v ∧
    MoveCost ext b.costType e xj u g ∧ MoveCost ext b.costType e xj v h ∧ g < h ∧ γ = h - g

/-- `i` reports the best of the actions in `R`: its action is one of them, its costs are the costs of its changes; with total or local costs
its cost is their sum, and smaller than or equal to that of every other one; for cost type `max` its cost is the largest cost of its
changes, it exceeds the largest cost of any other one by less than every step of offered costs, and not at all if
distinct costs differ by at least some such step. -/
def BestOf (ext : Ext K) (b : Builder K) (x : List K) (R : List K → Prop) (i : Info K) : Prop :=
  ∃ c a cs, i.cost = .fin c ∧ i.actions = some a ∧ i.costs = some cs ∧ R a ∧ ActionCosts ext b.costType b.aset x a cs ∧
    (b.costType ≠ .max → c = cs.sum ∧ ∀ a' cs', R a' → ActionCosts ext b.costType b.aset x a' cs' → c ≤ cs'.sum) ∧
    (b.costType = .max → c ∈ cs ∧ (∀ v ∈ cs, v ≤ c) ∧ ∀ a' cs' M', R a' → ActionCosts ext b.costType b.aset x a' cs' →
      M' ∈ cs' → (∀ v ∈ cs', v ≤ M') → (∀ γ, OfferedStep ext b x γ → c < M' + γ) ∧
      ∀ γ, OfferedStep ext b x γ → (∀ g g', SomeMoveCost ext b x g → SomeMoveCost ext b x g' → g < g' → γ ≤ g' - g) → c ≤ M')

/-! ## Audits -/

/-- The row `x` already has the outcome asked for: the score is at least 0 for `y = 1`, below 0 for `y = -1`
and `y = 0`. -/
def HasOutcome (y : Int) (w : List K) (t : K) (x : List K) : Prop :=
  if 0 < y then 0 ≤ dot w x + t else dot w x + t < 0

/-- The solver as it answers at time `n`. -/
def Oracle.at (o : Oracle K) (n : ℕ) : Oracle K := fun _ m => o n m

/-- A solver that answers equal programs equally. -/
def Oracle.Steady (o : Oracle K) : Prop := ∀ k k' m, o k m = o k' m

/-- Histories of an auditor: created for a reachable action set, then any number of audits with any solvers;
in between the user may bring the builder (and with it the shared action set) into any other reachable state
with the same classifier and cost type. -/
inductive Auditor.Reachable (ext : Ext K) : Auditor K → Prop
  | mk {be : Backend} {A : ActionSet K} {w : List K} {t : K} {ad : Auditor K} (hA : A.Reachable ext)
      (h : mkAuditor be A w t = .ok ad) : Auditor.Reachable ext ad
  | audit {ι : Type} {ad : Auditor K} (o : Oracle K) (X : List (ι × List K)) (y : Int)
      (hr : Auditor.Reachable ext ad) : Auditor.Reachable ext (ad.audit ext o X y).1
  | user {ad : Auditor K} {b : Builder K} (hr : Auditor.Reachable ext ad) (hb : b.Reachable ext)
      (hw : b.coefs = ad.builder.coefs) (ht : b.intercept = ad.builder.intercept)
      (hc : b.costType = ad.builder.costType) : Auditor.Reachable ext { ad with builder := b }

/-! ## Flipsets -/

/-- Histories of a flipset: created with any arguments, then any number of calls of `populate` (with any
solvers, successful or not), `sort` and `to_flat_df`; in between action set and builder may be changed at
will.  The index is the order in force: the columns of the last `sort(by = ...)` if that was in place,
`none` if it was not. -/
inductive Flipset.Reachable (ext : Ext K) : Option (List SortCol) → Flipset K → Prop
  | mk (be : Backend) (A : ActionSet K) (x w : List K) (t : K) (b : Option (Builder K)) :
      Flipset.Reachable ext (some [.size, .cost, .scoreNew]) (mkFlipset be A x w t b)
  | populate {ord : Option (List SortCol)} {fs fs' : Flipset K} {o : Oracle K} {fuel : ℕ} {total : Option ℕ}
      {et : EnumType} {ct : CostType} {r : Except Err Unit} (hr : Flipset.Reachable ext ord fs)
      (h : fs.populate ext o fuel total et ct = some (fs', r)) : Flipset.Reachable ext ord fs'
  | sortBy {ord : Option (List SortCol)} {fs fs' : Flipset K} {cols : List SortCol} {inplace : Bool}
      (hr : Flipset.Reachable ext ord fs) (h : fs.sort cols inplace = .ok fs') :
      Flipset.Reachable ext (if inplace then some cols else none) fs'
  | resort {ord : Option (List SortCol)} {fs : Flipset K} (hr : Flipset.Reachable ext ord fs) :
      Flipset.Reachable ext ord fs.resort
  | flat {ord : Option (List SortCol)} {fs : Flipset K} (hr : Flipset.Reachable ext ord fs) :
      Flipset.Reachable ext ord fs.toFlat.1
  | user {ord : Option (List SortCol)} {fs : Flipset K} (A : ActionSet K) (b : Option (Builder K))
      (hr : Flipset.Reachable ext ord fs) : Flipset.Reachable ext ord { fs with aset := A, builder := b }

/-- Use of a flipset whose action set and builder the user leaves alone: `populate` (successful or not), `sort`
and `to_flat_df`. -/
inductive Flipset.Used (ext : Ext K) (o : Oracle K) (fs0 : Flipset K) : Flipset K → Prop
  | refl : Flipset.Used ext o fs0 fs0
  | populate {fs fs' : Flipset K} {fuel : ℕ} {total : Option ℕ} {et : EnumType} {ct : CostType}
      {r : Except Err Unit} (hr : Flipset.Used ext o fs0 fs)
      (h : fs.populate ext o fuel total et ct = some (fs', r)) : Flipset.Used ext o fs0 fs'
  | sortBy {fs fs' : Flipset K} {cols : List SortCol} {inplace : Bool} (hr : Flipset.Used ext o fs0 fs)
      (h : fs.sort cols inplace = .ok fs') : Flipset.Used ext o fs0 fs'
  | resort {fs : Flipset K} (hr : Flipset.Used ext o fs0 fs) : Flipset.Used ext o fs0 fs.resort
  | flat {fs : Flipset K} (hr : Flipset.Used ext o fs0 fs) : Flipset.Used ext o fs0 fs.toFlat.1

/-- `r` is the table row describing item `i`: its changed features in increasing order of index, with
names, current and new values; cost, score and prediction. -/
structure DescribesItem (names : List String) (x w : List K) (t : K) (i : Info K) (r : FlipRow K) : Prop where
  ex : ∃ a, i.actions = some a ∧ a.length = names.length ∧ x.length = names.length ∧ w.length = names.length ∧
    r.featureIdx.Pairwise (· < ·) ∧ (∀ j : ℕ, j ∈ r.featureIdx ↔ j < a.length ∧ a.getD j 0 ≠ 0) ∧
    r.features = r.featureIdx.map (fun j => names.getD j "") ∧
    r.x = r.featureIdx.map (fun j => x.getD j 0) ∧
    r.xNew = r.featureIdx.map (fun j => (vadd x a).getD j 0) ∧
    r.size = numChanged a ∧ r.scoreNew = dot w (vadd x a) + t ∧ r.yhatNew = sgn (dot w (vadd x a) + t)
  cost : r.cost = i.cost
  feasible : r.feasible = i.feasible

/-- `r` may stand before `s` in the order of one column, strictly. -/
def SortCol.Before (c : SortCol) (r s : FlipRow K) : Prop :=
  match c with
  | .cost => (∃ u v, r.cost = .fin u ∧ s.cost = .fin v ∧ u < v)
  | .size => r.size < s.size
  | .scoreNew => r.scoreNew < s.scoreNew
  | .yhatNew => r.yhatNew < s.yhatNew
  | .feasible => r.feasible = false ∧ s.feasible = true
  | .flipped => r.flipped = false ∧ s.flipped = true

/-- Two rows agree in one column. -/
def SortCol.Same (c : SortCol) (r s : FlipRow K) : Prop :=
  match c with
  | .cost => r.cost = s.cost
  | .size => r.size = s.size
  | .scoreNew => r.scoreNew = s.scoreNew
  | .yhatNew => r.yhatNew = s.yhatNew
  | .feasible => r.feasible = s.feasible
  | .flipped => r.flipped = s.flipped

/-- Lexicographic order by several columns. -/
def OrderedBy : List SortCol → FlipRow K → FlipRow K → Prop
  | [], _, _ => True
  | c :: cs, r, s => c.Before r s ∨ (c.Same r s ∧ OrderedBy cs r s)

end Recourse
