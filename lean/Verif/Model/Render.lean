import Verif.Model.Flipset

/-!
# Model of the rendered tables of a flipset (recourse/flipset.py:257-338)

Layout (padding, separators, tags, fonts) is not modelled: a rendered table is the list of its lines, a line the
list of what its cells show.
-/

namespace Recourse

variable {K : Type} [Field K] [LinearOrder K] [IsStrictOrderedRing K] [FloorRing K]

/-- `int(x)`: rounding towards zero (recourse/flipset.py:329-330). -/
def intOf (x : K) : ℤ := if 0 ≤ x then ⌊x⌋ else ⌈x⌉

/-- `str(int(x)) if int(x) == x else str(x)` (recourse/flipset.py:329-330): an integer is shown without decimals.  The
text is represented by the number it shows and whether it shows decimals. -/
def valueText (x : K) : PyVal K := if ((intOf x : ℤ) : K) = x then .int (intOf x) else .flt x

/-- A line of the HTML table (recourse/flipset.py:316-337): the index `(item, row)`, the cells, and whether the
background is white. -/
structure HtmlLine (K : Type) where
  item : ℕ
  row : ℕ
  feature : String
  current : PyVal K
  required : PyVal K
  white : Bool

/-- `_color_white_or_gray` on an item number (recourse/flipset.py:298-302). -/
def isWhite (item : ℕ) : Bool := decide (item % 2 = 1)

/-- The lines with their numbers within the items (recourse/flipset.py:321-330: `groupby('item').cumcount() + 1`). -/
def htmlLines (l : List (FlatLine K)) : List (HtmlLine K) :=
  l.zipIdx.map fun (p : FlatLine K × ℕ) =>
    { item := p.1.item, row := (l.take p.2).countP (fun q => decide (q.item = p.1.item)) + 1,
      feature := p.1.feature, current := valueText p.1.current, required := valueText p.1.required,
      white := isWhite p.1.item }

/-- `to_html()` (recourse/flipset.py:295-338): `none` is the text `No Recourse`, shown when `to_flat_df()` is
empty. -/
def Flipset.toHtml (fs : Flipset K) : Flipset K × Option (List (HtmlLine K)) :=
  let r := fs.toFlat
  if r.1.rows.isEmpty then (r.1, none) else (r.1, some (htmlLines r.2))

/-! ## Names in `to_latex` -/

/-- `str.replace(old, new)` for a non-empty `old` (recourse/flipset.py:281): left to right; the counter skips the
characters of a replaced occurrence. -/
def replaceGo (old new : List Char) : ℕ → List Char → List Char
  | _, [] => []
  | k + 1, _ :: t => replaceGo old new k t
  | 0, c :: t =>
      if old.isPrefixOf (c :: t) then new ++ replaceGo old new (old.length - 1) t
      else c :: replaceGo old new 0 t

/-- `'%s{%s}' % (name_formatter, v)` (recourse/flipset.py:281). -/
def wrapName (fmt v : List Char) : List Char := fmt ++ '{' :: v ++ ['}']

/-- The loop over the names of the variables (recourse/flipset.py:279-281) on the text of one cell.  Simplification: the code
replaces in the whole table; a name that spans several cells is not modelled. -/
def wrapNames (fmt : List Char) (names : List (List Char)) (cell : List Char) : List Char :=
  names.foldl (fun s v => replaceGo v (wrapName fmt v) 0 s) cell

end Recourse
