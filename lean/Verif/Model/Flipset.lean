import Verif.Model.Builder

/-!
# Model of `Flipset` (recourse/flipset.py)
-/

namespace Recourse

variable {K : Type} [Field K] [LinearOrder K] [IsStrictOrderedRing K] [FloorRing K]

/-- A row of the data frame with its index label (recourse/flipset.py:18-27, 402-413). -/
structure FlipRow (K : Type) where
  label : ℕ
  cost : XV K
  size : ℕ
  features : List String
  featureIdx : List ℕ
  x : List K
  xNew : List K
  scoreNew : K
  yhatNew : Int
  feasible : Bool
  flipped : Bool
  deriving DecidableEq

/-- Columns by which the table can be sorted.  Simplification: the list-valued columns (`features`,
`feature_idx`, `x`, `x_new`) are not offered as sort keys. -/
inductive SortCol
  | cost | size | scoreNew | yhatNew | feasible | flipped
  deriving DecidableEq, Repr

/-- `Flipset` (recourse/flipset.py:11-50).  `sortBy`, `sortInplace` are `_sort_args`. -/
structure Flipset (K : Type) where
  aset : ActionSet K
  names : List String
  backend : Backend
  x : List K
  coefs : List K
  intercept : K
  builder : Option (Builder K)
  items : List (Info K)
  rows : List (FlipRow K)
  sortBy : List SortCol
  sortInplace : Bool

/-- `Flipset.__init__` (recourse/flipset.py:30-50) after `parse_classifier_args`.  Lengths are not checked. -/
def mkFlipset (be : Backend) (A : ActionSet K) (x w : List K) (t : K)
    (builder : Option (Builder K)) : Flipset K :=
  { aset := A, names := A.elems.map (·.name), backend := be, x := x, coefs := w, intercept := t,
    builder := builder, items := [], rows := [], sortBy := [.size, .cost, .scoreNew], sortInplace := true }

/-- `len(flipset)` (recourse/flipset.py:53-57). -/
def Flipset.len (fs : Flipset K) : ℕ := fs.items.length

/-- `yhat` (recourse/flipset.py:123-125): despite its name the *score* of `x`. -/
def Flipset.yhat (fs : Flipset K) : K := fs.intercept + dot fs.coefs fs.x

/-- `score(actions)` (recourse/flipset.py:132-136). -/
def Flipset.score (fs : Flipset K) (a : List K) : K := fs.intercept + dot fs.coefs (vadd fs.x a)

/-- `predict(actions)` (recourse/flipset.py:128-129). -/
def Flipset.predict (fs : Flipset K) (a : List K) : Int := sgn (fs.score a)

/-- Comparison of extended values as pandas sorts them (NaN last). -/
def XV.le : XV K → XV K → Bool
  | .fin a, .fin b => decide (a ≤ b)
  | .fin _, _ => true
  | .inf, .fin _ => false
  | .inf, _ => true
  | .nan, .nan => true
  | .nan, _ => false

/-- Comparison of two rows by one column. -/
def SortCol.le (c : SortCol) (r s : FlipRow K) : Bool :=
  match c with
  | .cost => XV.le r.cost s.cost
  | .size => decide (r.size ≤ s.size)
  | .scoreNew => decide (r.scoreNew ≤ s.scoreNew)
  | .yhatNew => decide (r.yhatNew ≤ s.yhatNew)
  | .feasible => !r.feasible || s.feasible
  | .flipped => !r.flipped || s.flipped

/-- Lexicographic comparison of two rows by a list of columns (`sort_values(by = ...)`, ascending). -/
def rowLe : List SortCol → FlipRow K → FlipRow K → Bool
  | [], _, _ => true
  | c :: cs, r, s =>
      if c.le r s then (if c.le s r then rowLe cs r s else true) else false

/-- `self._df.sort_values(by = cols, inplace = True)` (recourse/flipset.py:189, 208).  Simplification:
ties keep their order (pandas guarantees this only for several columns). -/
def sortRows (cols : List SortCol) (rows : List (FlipRow K)) : List (FlipRow K) :=
  rows.insertionSort (fun r s => rowLe cols r s = true)

/-- `sort()` (recourse/flipset.py:188-190): with `inplace = False` among the saved arguments the sorted
copy is discarded. -/
def Flipset.resort (fs : Flipset K) : Flipset K :=
  if fs.sortInplace then { fs with rows := sortRows fs.sortBy fs.rows } else fs

/-- `sort(by = cols, inplace = flag)` (recourse/flipset.py:192-209): the arguments are saved.
Simplification: `axis` keeps its default, column names are valid. -/
def Flipset.sort (fs : Flipset K) (cols : List SortCol) (inplace : Bool) : Except Err (Flipset K) :=
  if cols.isEmpty then .error .assertion                                 -- 198
  else .ok ({ fs with sortBy := cols, sortInplace := inplace } : Flipset K).resort

/-- `np.flatnonzero`. -/
def flatnonzero (a : List K) : List ℕ :=
  (List.range a.length).filter fun j => decide (a.getD j 0 ≠ 0)

/-- `_validate_action` (recourse/flipset.py:371-382); `none` is a vector of NaNs of the right length.  A
wrong length raises `AttributeError`: the message uses the missing attribute `n_variables` (378).  If `x`
or the coefficients have another length than the action, numpy raises `ValueError` (125, 134, 381).
Simplification: broadcasting of vectors of length 1 is not modelled. -/
def Flipset.validateAction (fs : Flipset K) : Option (List K) → Except Err (List K)
  | none => .error .assertion                                            -- 379
  | some a =>
      if a.length ≠ fs.names.length then .error .attribute               -- 378
      else do
        pyAssert (decide (1 ≤ (flatnonzero a).length))                   -- 380
        if fs.x.length ≠ a.length ∨ fs.coefs.length ≠ a.length then .error .value
        else do
          pyAssert (decide (fs.yhat ≠ (fs.predict a : K)))               -- 381
          .ok a

/-- `item['cost'] > 0.0`. -/
def XV.pos : XV K → Bool
  | .fin c => decide (0 < c)
  | .inf => true
  | .nan => false

/-- `_validate_item` (recourse/flipset.py:355-368). -/
def Flipset.validateItem (fs : Flipset K) (i : Info K) : Except Err (Info K) := do
  let a ← fs.validateAction i.actions                                    -- 365
  pyAssert i.cost.pos                                                    -- 366
  pyAssert i.feasible                                                    -- 367
  .ok { i with actions := some a }

/-- `_item_to_df_row` (recourse/flipset.py:392-415). -/
def Flipset.itemRow (fs : Flipset K) (label : ℕ) (i : Info K) : FlipRow K :=
  let a := i.actions.getD []
  let nz := flatnonzero a
  { label := label
    cost := i.cost
    size := nz.length
    features := nz.map fun j => fs.names.getD j ""
    featureIdx := nz
    x := nz.map fun j => fs.x.getD j 0
    xNew := nz.map fun j => fs.x.getD j 0 + a.getD j 0
    scoreNew := fs.score a
    yhatNew := fs.predict a
    feasible := i.feasible
    flipped := decide ((fs.predict a : K) ≠ fs.yhat) }

/-- `df.append(rows, ignore_index = True)` (recourse/flipset.py:388): labels are renewed. -/
def relabel (rows : List (FlipRow K)) : List (FlipRow K) :=
  rows.zipIdx.map fun p => { p.1 with label := p.2 }

/-- `_add(items)` and `_add_to_df` (recourse/flipset.py:342-352, 385-389): all items are validated first. -/
def Flipset.add (fs : Flipset K) (items : List (Info K)) : Except Err (Flipset K) := do
  let items ← items.mapM fs.validateItem
  let fs' := { fs with items := fs.items ++ items }
  if items.isEmpty then .ok fs'
  else
    .ok ({ fs' with rows := relabel (fs.rows ++ items.map (fs.itemRow 0)) } : Flipset K).resort

/-- `populate(total_items, enumeration_type, cost_type)` (recourse/flipset.py:141-178).  The builder is
created at the first call only (173-174): later calls ignore `cost_type`.  If its constructor raises,
no builder is stored, but the action set may have been aligned.  `none`: the loop of the builder did
not finish within `fuel` iterations. -/
def Flipset.populate (ext : Ext K) (o : Oracle K) (fuel : ℕ) (fs : Flipset K) (total : Option ℕ)
    (et : EnumType) (ct : CostType) : Option (Flipset K × Except Err Unit) :=
  let made : Flipset K × Except Err (Builder K) :=
    match fs.builder with
    | some b => (fs, .ok b)
    | none =>
      match mkBuilder fs.backend ct fs.aset fs.coefs fs.intercept with
      | .error er => (fs, .error er)
      | .ok b =>
        match b.setX ext fs.x with
        | (b, .error er) => ({ fs with aset := b.aset }, .error er)
        | (b, .ok ()) => ({ fs with aset := b.aset, builder := some b }, .ok b)
  match made with
  | (fs, .error er) => some (fs, .error er)
  | (fs, .ok b) =>
    match b.populate o et fuel total with
    | .error er => some (fs, .error er)
    | .ok none => none
    | .ok (some (b, infos)) =>
      let fs := { fs with builder := some b }
      match fs.add infos with
      | .error er => some (fs, .error er)
      | .ok fs => some (fs, .ok ())

/-- A line of the flattened table: item label, feature, current and required value
(recourse/flipset.py:220-254). -/
structure FlatLine (K : Type) where
  item : ℕ
  feature : String
  current : K
  required : K
  deriving DecidableEq

/-- The lines of one row (recourse/flipset.py:228-241: the columns are unstacked and merged on the item
and the position within the item). -/
def FlipRow.lines (r : FlipRow K) : List (FlatLine K) :=
  (r.features.zip (r.x.zip r.xNew)).map fun p => ⟨r.label, p.1, p.2.1, p.2.2⟩

/-- `to_flat_df()` (recourse/flipset.py:220-254): sorts the table (state change), then lists the lines
by item label.  The empty flipset gives the empty list.  Simplification: lines of one item keep their order
(pandas' default sort is not guaranteed to be stable). -/
def Flipset.toFlat (fs : Flipset K) : Flipset K × List (FlatLine K) :=
  let fs := fs.resort
  (fs, (fs.rows.flatMap FlipRow.lines).insertionSort (fun a b => a.item ≤ b.item))

/-- `to_latex()` up to formatting (recourse/flipset.py:257-292): for an empty flipset `to_flat_df`
returns a list, which has no attribute `columns`. -/
def Flipset.toLatex (fs : Flipset K) : Flipset K × Except Err (List (FlatLine K)) :=
  let r := fs.toFlat
  if r.1.rows.isEmpty then (r.1, .error .attribute) else (r.1, .ok r.2)

end Recourse
