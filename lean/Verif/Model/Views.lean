import Verif.Model.Flipset

/-!
# Model of the tables and lists that a flipset hands out

`df`, `view()` and `solutions_info` return the objects that the flipset itself works with.  Here tables are objects: the heap lists all data
frames the flipset ever had, and `cur` is the one it has now.  Sorting changes a table in place; `append` makes a new one.
-/

namespace Recourse

variable {K : Type} [Field K] [LinearOrder K] [IsStrictOrderedRing K] [FloorRing K]

/-- A flipset whose table is the object number `cur` of a heap (recourse/flipset.py:48-49); the rows stored in `fs` itself are not used. -/
structure Shown (K : Type) where
  fs : Flipset K
  tables : List (List (FlipRow K))
  cur : ℕ

/-- The flipset as its methods see it: with the rows of its present table (recourse/flipset.py:49, 120, 217). -/
def Shown.flipset (s : Shown K) : Flipset K := { s.fs with rows := s.tables.getD s.cur [] }

/-- A new flipset: `self._df = pd.DataFrame(...)` (recourse/flipset.py:49). -/
def Shown.new (fs : Flipset K) : Shown K := { fs := fs, tables := [fs.rows], cur := 0 }

/-- The state after a method that works on the present table in place (`sort_values(inplace = True)`, recourse/flipset.py:189, 208). -/
def Shown.inPlace (s : Shown K) (fs : Flipset K) : Shown K := { s with fs := fs, tables := s.tables.set s.cur fs.rows }

/-- The state after a method that made a new table: `self._df = self._df.append(...)` (recourse/flipset.py:388). -/
def Shown.fresh (s : Shown K) (fs : Flipset K) : Shown K := { fs := fs, tables := s.tables ++ [fs.rows], cur := s.tables.length }

/-- `populate` (recourse/flipset.py:141-178): a new table is made when items are added (`if len(items) > 0`, 386-388). -/
def Shown.populate (ext : Ext K) (o : Oracle K) (fuel : ℕ) (s : Shown K) (total : Option ℕ) (et : EnumType) (ct : CostType) :
    Option (Shown K × Except Err Unit) :=
  match s.flipset.populate ext o fuel total et ct with
  | none => none
  | some (fs, res) => some (if s.fs.items.length < fs.items.length then s.fresh fs else { s with fs := fs }, res)

/-- What a program does with a flipset and with the objects it got from it.  `edit n rows` is any change of the rows of the data frame with number `n`;
`editItems` any change of the list returned by `solutions_info`.  Simplification: rows are replaced as a whole (the lists inside a
row are not objects of their own). -/
inductive ShownCall (K : Type)
  | populate (o : Oracle K) (fuel : ℕ) (total : Option ℕ) (et : EnumType) (ct : CostType)
  | sortBy (cols : List SortCol) (inplace : Bool)
  | resort
  | flat
  | df
  | items
  | edit (n : ℕ) (rows : List (FlipRow K))
  | editItems (items : List (Info K))

/-- What a call returns: nothing or an exception, the lines of the flat table, the data frame itself (its number), or the list of items. -/
inductive ShownOut (K : Type)
  | done (res : Except Err Unit)
  | lines (l : List (FlatLine K))
  | table (n : ℕ)
  | items (l : List (Option (List K)))

/-- One call (recourse/flipset.py:83-97, 115-120, 141-254); `none`: the call does not return. -/
def Shown.step (ext : Ext K) (s : Shown K) : ShownCall K → Option (Shown K × ShownOut K)
  | .populate o fuel total et ct =>
      match s.populate ext o fuel total et ct with
      | none => none
      | some (s', res) => some (s', .done res)
  | .sortBy cols inplace =>
      match s.flipset.sort cols inplace with
      | .error er => some (s, .done (.error er))
      | .ok fs => some (s.inPlace fs, .done (.ok ()))
  | .resort => some (s.inPlace s.flipset.resort, .done (.ok ()))
  | .flat => some (s.inPlace s.flipset.toFlat.1, .lines s.flipset.toFlat.2)
  | .df => some (s, .table s.cur)
  | .items => some (s, .items (s.fs.items.map (·.actions)))
  | .edit n rows => some ({ s with tables := s.tables.set n rows }, .done (.ok ()))
  | .editItems items => some ({ s with fs := { s.fs with items := items } }, .done (.ok ()))

/-- A program: calls one after the other. -/
def Shown.run (ext : Ext K) (s : Shown K) : List (ShownCall K) → Option (Shown K × List (ShownOut K))
  | [] => some (s, [])
  | c :: cs =>
      match s.step ext c with
      | none => none
      | some (s', out) =>
        match s'.run ext cs with
        | none => none
        | some (s'', outs) => some (s'', out :: outs)

end Recourse
