import Verif.Model.Render
import Verif.Model.Report

/-!
# Model of the tables of a flipset with any sorting algorithm

`Model/Flipset.lean` sorts stably and joins the unstacked columns position by position.  Pandas promises less: `sort_values` with one column runs
numpy's quicksort, which may rearrange rows with equal keys in any way.  Here the sorting algorithm is a parameter, and the columns of the
flattened table are unstacked and merged as in the code.
-/

namespace Recourse

variable {K : Type} [Field K] [LinearOrder K] [IsStrictOrderedRing K] [FloorRing K]

/-- A sorting algorithm: comparison and list to list.  Which algorithm numpy runs depends on its version and on the number of rows. -/
abbrev Sorter := ∀ α : Type, (α → α → Bool) → List α → List α

/-- `sort()` (recourse/flipset.py:188-190). -/
def Flipset.resortBy (srt : Sorter) (fs : Flipset K) : Flipset K :=
  if fs.sortInplace then { fs with rows := srt (FlipRow K) (rowLe fs.sortBy) fs.rows } else fs

/-- `sort(by = cols, inplace = flag)` (recourse/flipset.py:192-209). -/
def Flipset.sortWith (srt : Sorter) (fs : Flipset K) (cols : List SortCol) (inplace : Bool) : Except Err (Flipset K) :=
  if cols.isEmpty then .error .assertion                                 -- 198
  else .ok (({ fs with sortBy := cols, sortInplace := inplace } : Flipset K).resortBy srt)

/-- `_add(items)` and `_add_to_df` (recourse/flipset.py:342-352, 385-389). -/
def Flipset.addBy (srt : Sorter) (fs : Flipset K) (items : List (Info K)) : Except Err (Flipset K) := do
  let items ← items.mapM fs.validateItem
  let fs' := { fs with items := fs.items ++ items }
  if items.isEmpty then .ok fs'
  else
    .ok (({ fs' with rows := relabel (fs.rows ++ items.map (fs.itemRow 0)) } : Flipset K).resortBy srt)

/-- `populate(total_items, enumeration_type, cost_type)` (recourse/flipset.py:141-178). -/
def Flipset.populateBy (srt : Sorter) (ext : Ext K) (o : Oracle K) (fuel : ℕ) (fs : Flipset K) (total : Option ℕ)
    (et : EnumType) (ct : CostType) : Option (Flipset K × Except Err Unit) :=
  let made : Flipset K × Except Err (Builder K) :=
    match fs.builder with
    | some b => (fs, .ok b)
    | none =>
      match mkBuilder fs.backend ct fs.aset fs.coefs fs.intercept with
      | .error er => (fs, .error er)
      | .ok b =>
        match b.setX ext fs.x with
        | (b, .error er) => ({ fs with aset := b.aset }, .error er)
        | (b, .ok ()) => ({ fs with aset := b.aset, builder := some b }, .ok b)
  match made with
  | (fs, .error er) => some (fs, .error er)
  | (fs, .ok b) =>
    match b.populate o et fuel total with
    | .error er => some (fs, .error er)
    | .ok none => none
    | .ok (some (b, infos)) =>
      let fs := { fs with builder := some b }
      match fs.addBy srt infos with
      | .error er => some (fs, .error er)
      | .ok fs => some (fs, .ok ())

/-- `tex_df.set_index(['item_id'])[n].apply(pd.Series).stack()` (recourse/flipset.py:232-235): the entries of a list-valued column with
the label of the row and the position in the list.  No entry is NaN, so `stack` drops none. -/
def stackCol {β : Type} (col : FlipRow K → List β) (rows : List (FlipRow K)) : List ((ℕ × ℕ) × β) :=
  rows.flatMap fun r => (col r).zipIdx.map fun p => ((r.label, p.2), p.1)

/-- The three columns merged on `item_id` and `var_id` (recourse/flipset.py:229-244), with the position dropped. -/
def mergedLines (rows : List (FlipRow K)) : List (FlatLine K) :=
  (joinIdx (joinIdx (stackCol (·.features) rows) (stackCol (·.x) rows)) (stackCol (·.xNew) rows)).map
    fun e => ⟨e.1.1, e.2.1.1, e.2.1.2, e.2.2⟩

/-- `to_flat_df()` (recourse/flipset.py:220-254). -/
def Flipset.toFlatBy (srt : Sorter) (fs : Flipset K) : Flipset K × List (FlatLine K) :=
  let fs := fs.resortBy srt
  (fs, srt (FlatLine K) (fun a b => decide (a.item ≤ b.item)) (mergedLines fs.rows))

/-- `to_html()` (recourse/flipset.py:295-338). -/
def Flipset.toHtmlBy (srt : Sorter) (fs : Flipset K) : Flipset K × Option (List (HtmlLine K)) :=
  let r := fs.toFlatBy srt
  if r.1.rows.isEmpty then (r.1, none) else (r.1, some (htmlLines r.2))

end Recourse
