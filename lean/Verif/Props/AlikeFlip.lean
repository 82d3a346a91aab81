import Verif.Props.Alike
import Verif.Lemmas.Flip
import Verif.Lemmas.Audit

/-!
# C120: equal scores, equal flipsets
-/

set_option linter.unusedSectionVars false

namespace Recourse

variable {K : Type} [Field K] [LinearOrder K] [IsStrictOrderedRing K] [FloorRing K]

variable {ext : Ext K} {x x' : List K} {f f1 g g1 : Flipset K} {b0 b1 : Builder K}

/-- What is asked of a flipset: to search for items, or to sort its table. -/
inductive FlipCall (K : Type)
  | populate (o : Oracle K) (fuel : ℕ) (total : Option ℕ) (et : EnumType) (ct : CostType)
  | sort (cols : List SortCol) (inplace : Bool)
  | resort

/-- The calls of `Flipset`: the changed flipset and the exception, if any (after which the flipset is as the failed call left it).
`none`: an enumeration does not come to an end. -/
def Flipset.call (ext : Ext K) (f : Flipset K) : FlipCall K → Option (Flipset K × Except Err Unit)
  | .populate o fuel total et ct => f.populate ext o fuel total et ct
  | .sort cols inplace =>
    match f.sort cols inplace with
    | .ok f' => some (f', .ok ())
    | .error er => some (f, .error er)
  | .resort => some (f.resort, .ok ())

/-- A list of calls: the last flipset and the replies. -/
def Flipset.calls (ext : Ext K) : Flipset K → List (FlipCall K) → Option (Flipset K × List (Except Err Unit))
  | f, [] => some (f, [])
  | f, c :: cs =>
    match f.call ext c with
    | none => none
    | some (f', r) => (Flipset.calls ext f' cs).map fun p => (p.1, r :: p.2)

/-- A row of the table without the person's own values (the columns `x` and `x_new`). -/
def FlipRow.rest (r : FlipRow K) : FlipRow K := { r with x := [], xNew := [] }

/-- The same flipset, but for the point. -/
structure Twin (x x' : List K) (f g : Flipset K) : Prop where
  aset : g.aset = f.aset
  names : g.names = f.names
  backend : g.backend = f.backend
  point : f.x = x
  point' : g.x = x'
  coefs : g.coefs = f.coefs
  intercept : g.intercept = f.intercept
  builder : ∃ ox b, f.builder = some b ∧ g.builder = some (b.moved ox)
  items : g.items = f.items
  rows : g.rows.map FlipRow.rest = f.rows.map FlipRow.rest
  sortBy : g.sortBy = f.sortBy
  sortInplace : g.sortInplace = f.sortInplace
  length : x'.length = x.length
  score : dot f.coefs x' = dot f.coefs x

theorem rowLe_rest (cols : List SortCol) (r s : FlipRow K) : rowLe cols r.rest s.rest = rowLe cols r s := by
  induction cols with
  | nil => rfl
  | cons c cols ih =>
    unfold rowLe
    rw [ih]
    cases c <;> rfl

theorem sortRows_rest (cols : List SortCol) (rows : List (FlipRow K)) :
    (sortRows cols rows).map FlipRow.rest = sortRows cols (rows.map FlipRow.rest) := by
  unfold sortRows
  apply List.map_insertionSort
  intro a _ b _
  rw [rowLe_rest]

theorem relabel_rest (rows : List (FlipRow K)) : (relabel rows).map FlipRow.rest = relabel (rows.map FlipRow.rest) := by
  unfold relabel
  rw [List.zipIdx_map, List.map_map, List.map_map]
  rfl

theorem Twin.resort (h : Twin x x' f g) : Twin x x' f.resort g.resort := by
  unfold Flipset.resort
  by_cases hs : f.sortInplace = true
  · rw [if_pos hs, if_pos (h.sortInplace.trans hs)]
    exact { h with rows := by dsimp only; rw [sortRows_rest, sortRows_rest, h.rows, h.sortBy] }
  · rw [if_neg hs, if_neg (by rw [h.sortInplace]; exact hs)]; exact h

theorem Twin.score_eq (h : Twin x x' f g) {a : List K} (ha : f.x.length = a.length) : g.score a = f.score a := by
  unfold Flipset.score
  rw [h.intercept, h.coefs, dot_vadd _ _ _ ha, dot_vadd _ _ _ (by rw [h.point', h.length, ← h.point, ha]), h.point, h.point', h.score]

theorem Twin.yhat_eq (h : Twin x x' f g) : g.yhat = f.yhat := by
  unfold Flipset.yhat
  rw [h.intercept, h.coefs, h.point, h.point', h.score]

theorem Twin.validate (h : Twin x x' f g) : g.validateItem = f.validateItem := by
  funext i
  have e : g.validateAction i.actions = f.validateAction i.actions := by
    unfold Flipset.validateAction
    cases i.actions with
    | none => rfl
    | some a =>
      dsimp only
      have hl : g.x.length = f.x.length := by rw [h.point, h.point', h.length]
      rw [h.names, hl, h.coefs, h.yhat_eq]
      by_cases h1 : a.length ≠ f.names.length
      · rw [if_pos h1, if_pos h1]
      rw [if_neg h1, if_neg h1]
      by_cases h2 : f.x.length ≠ a.length ∨ f.coefs.length ≠ a.length
      · rw [if_pos h2, if_pos h2]
      · have h3 := h2
        push Not at h3
        rw [if_neg h2, if_neg h2]
        unfold Flipset.predict
        rw [h.score_eq h3.1]
  unfold Flipset.validateItem
  rw [e]

theorem Twin.itemRow (h : Twin x x' f g) {i : Info K} (hi : ItemOK f i) (l : ℕ) :
    (g.itemRow l i).rest = (f.itemRow l i).rest := by
  obtain ⟨⟨a, h1, h2, h3, -⟩, -, -⟩ := hi
  have e := h.score_eq (a := a) (h3.trans h2.symm)
  have ep : g.predict a = f.predict a := by unfold Flipset.predict; rw [e]
  unfold Flipset.itemRow FlipRow.rest
  rw [h1]
  dsimp only [Option.getD_some]
  rw [e, ep, h.yhat_eq, h.names]

theorem Twin.add (h : Twin x x' f g) (items : List (Info K)) :
    (∃ er, f.add items = .error er ∧ g.add items = .error er) ∨
    ∃ f1 g1, f.add items = .ok f1 ∧ g.add items = .ok g1 ∧ Twin x x' f1 g1 := by
  unfold Flipset.add
  rw [h.validate]
  cases hm : items.mapM f.validateItem with
  | error er => exact Or.inl ⟨er, rfl, rfl⟩
  | ok l =>
    right
    obtain ⟨rfl, hok⟩ := mapM_validate hm
    rw [ok_bind, ok_bind]
    dsimp only
    by_cases he : l.isEmpty = true
    · rw [if_pos he, if_pos he]
      exact ⟨_, _, rfl, rfl, { h with items := by dsimp only; rw [h.items] }⟩
    · rw [if_neg he, if_neg he]
      refine ⟨_, _, rfl, rfl, Twin.resort { h with items := by dsimp only; rw [h.items], rows := ?_ }⟩
      dsimp only
      rw [relabel_rest, relabel_rest, List.map_append, List.map_append, h.rows, List.map_map, List.map_map]
      congr 2
      exact List.map_congr_left fun i hi => h.itemRow (hok i hi) 0

theorem Twin.populate (h : Twin x x' f g) (o : Oracle K) (fuel : ℕ) (total : Option ℕ) (et : EnumType) (ct : CostType) :
    (f.populate ext o fuel total et ct = none ∧ g.populate ext o fuel total et ct = none) ∨
    ∃ f1 g1 r, f.populate ext o fuel total et ct = some (f1, r) ∧ g.populate ext o fuel total et ct = some (g1, r) ∧
      Twin x x' f1 g1 := by
  obtain ⟨ox, b, hb, hb'⟩ := h.builder
  unfold Flipset.populate
  rw [hb, hb']
  dsimp only
  rw [populate_moved]
  cases b.populate o et fuel total with
  | error er => exact Or.inr ⟨_, _, _, rfl, rfl, h⟩
  | ok r =>
    cases r with
    | none => exact Or.inl ⟨rfl, rfl⟩
    | some r =>
      obtain ⟨b', infos⟩ := r
      right
      have ht : Twin x x' { f with builder := some b' } { g with builder := some (b'.moved ox) } :=
        { h with builder := ⟨ox, b', rfl, rfl⟩ }
      dsimp only [Except.map, Option.map]
      rcases ht.add infos with ⟨er, e1, e2⟩ | ⟨f1, g1, e1, e2, e3⟩
      · rw [e1, e2]; exact ⟨_, _, _, rfl, rfl, ht⟩
      · rw [e1, e2]; exact ⟨_, _, _, rfl, rfl, e3⟩

theorem Twin.call (h : Twin x x' f g) (c : FlipCall K) :
    (f.call ext c = none ∧ g.call ext c = none) ∨
    ∃ f1 g1 r, f.call ext c = some (f1, r) ∧ g.call ext c = some (g1, r) ∧ Twin x x' f1 g1 := by
  cases c with
  | populate o fuel total et ct => exact h.populate o fuel total et ct
  | sort cols inplace =>
    right
    unfold Flipset.call Flipset.sort
    dsimp only
    by_cases hc : cols.isEmpty = true
    · rw [if_pos hc, if_pos hc]; exact ⟨_, _, _, rfl, rfl, h⟩
    · rw [if_neg hc, if_neg hc]
      exact ⟨_, _, _, rfl, rfl, Twin.resort { h with sortBy := rfl, sortInplace := rfl }⟩
  | resort => exact Or.inr ⟨_, _, _, rfl, rfl, h.resort⟩

theorem Twin.calls : ∀ (cs : List (FlipCall K)) {f g : Flipset K}, Twin x x' f g →
    (f.calls ext cs = none ∧ g.calls ext cs = none) ∨
    ∃ f1 g1 rs, f.calls ext cs = some (f1, rs) ∧ g.calls ext cs = some (g1, rs) ∧ Twin x x' f1 g1
  | [], f, g, h => Or.inr ⟨f, g, [], rfl, rfl, h⟩
  | c :: cs, f, g, h => by
    unfold Flipset.calls
    rcases h.call (ext := ext) c with ⟨e1, e2⟩ | ⟨f1, g1, r, e1, e2, e3⟩
    · rw [e1, e2]; exact Or.inl ⟨rfl, rfl⟩
    · rw [e1, e2]
      dsimp only
      rcases Twin.calls cs e3 with ⟨k1, k2⟩ | ⟨f2, g2, rs, k1, k2, k3⟩
      · rw [k1, k2]; exact Or.inl ⟨rfl, rfl⟩
      · rw [k1, k2]; exact Or.inr ⟨f2, g2, r :: rs, rfl, rfl, k3⟩

/-- **C120**, flipsets.  Flipsets are made for two people who agree at all features that can change and have equal scores, and the
program for the first is accepted.  From the first search on, every list of calls (searches by either method, sorting) on them gets the same
replies, and the flipsets then have the same items (feasibility, cost, actions, costs), and the same tables but for the columns that show
the person's own values; or for both an enumeration does not end.  Nothing is assumed of the solvers. -/
theorem C120_flipset {be : Backend} {A : ActionSet K} {w : List K} {t : K} {ct : CostType} (hA : A.Reachable ext)
    (hb : mkBuilder be ct A w t = .ok b0) (hx : b0.setX ext x = (b1, .ok ())) (hs : SameActionable b0.aset x x')
    (hscore : dot w x' = dot w x) (o : Oracle K) (fuel : ℕ) (total : Option ℕ) (et : EnumType) (cs : List (FlipCall K)) :
    ((mkFlipset be A x w t none).calls ext (.populate o fuel total et ct :: cs) = none ∧
      (mkFlipset be A x' w t none).calls ext (.populate o fuel total et ct :: cs) = none) ∨
    ∃ f g replies, (mkFlipset be A x w t none).calls ext (.populate o fuel total et ct :: cs) = some (f, replies) ∧
      (mkFlipset be A x' w t none).calls ext (.populate o fuel total et ct :: cs) = some (g, replies) ∧
      g.items = f.items ∧ g.rows.map FlipRow.rest = f.rows.map FlipRow.rest := by
  have hr : b0.Reachable ext := .mk hA hb
  have hw : b0.coefs = w := (mkBuilder_fields hb).1
  have hx' := setX_moved hr hs (by rw [hw]; exact hscore) hx
  have ht : Twin x x' ({ mkFlipset be A x w t none with aset := b1.aset, builder := some b1 } : Flipset K)
      ({ mkFlipset be A x' w t none with aset := b1.aset, builder := some (b1.moved (some x')) } : Flipset K) :=
    { aset := rfl, names := rfl, backend := rfl, point := rfl, point' := rfl, coefs := rfl, intercept := rfl,
      builder := ⟨_, _, rfl, rfl⟩, items := rfl, rows := rfl, sortBy := rfl, sortInplace := rfl, length := hs.1, score := hscore }
  have e1 : (mkFlipset be A x w t none).calls ext (.populate o fuel total et ct :: cs) =
      ({ mkFlipset be A x w t none with aset := b1.aset, builder := some b1 } : Flipset K).calls ext
        (.populate o fuel total et ct :: cs) := by
    unfold Flipset.calls Flipset.call Flipset.populate
    have : mkBuilder (mkFlipset be A x w t none).backend ct (mkFlipset be A x w t none).aset
      (mkFlipset be A x w t none).coefs (mkFlipset be A x w t none).intercept = .ok b0 := hb
    have h2 : b0.setX ext (mkFlipset be A x w t none).x = (b1, .ok ()) := hx
    rw [show (mkFlipset be A x w t none).builder = none from rfl]
    dsimp only
    rw [this]
    dsimp only
    rw [h2]
  have e2 : (mkFlipset be A x' w t none).calls ext (.populate o fuel total et ct :: cs) =
      ({ mkFlipset be A x' w t none with aset := b1.aset, builder := some (b1.moved (some x')) } : Flipset K).calls ext
        (.populate o fuel total et ct :: cs) := by
    unfold Flipset.calls Flipset.call Flipset.populate
    have : mkBuilder (mkFlipset be A x' w t none).backend ct (mkFlipset be A x' w t none).aset
      (mkFlipset be A x' w t none).coefs (mkFlipset be A x' w t none).intercept = .ok b0 := hb
    have h2 : b0.setX ext (mkFlipset be A x' w t none).x = (b1.moved (some x'), .ok ()) := hx'
    rw [show (mkFlipset be A x' w t none).builder = none from rfl]
    dsimp only
    rw [this]
    dsimp only
    rw [h2]
    rfl
  rw [e1, e2]
  rcases Twin.calls (ext := ext) (.populate o fuel total et ct :: cs) ht with h | ⟨f, g, rs, h1, h2, h3⟩
  · exact Or.inl h
  · exact Or.inr ⟨f, g, rs, h1, h2, h3.items, h3.rows⟩

end Recourse
