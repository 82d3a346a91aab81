import Verif.Spec
import Verif.Lemmas.Except
import Mathlib.Data.List.Sort
import Mathlib.Data.List.GetD

/-!
# Lemmas about flipsets
-/

set_option linter.unusedSectionVars false

namespace Recourse

variable {K : Type} [Field K] [LinearOrder K] [IsStrictOrderedRing K] [FloorRing K]
  {ext : Ext K} {o : Oracle K} {fs fs' : Flipset K}

theorem resort_fields (fs : Flipset K) : fs.resort.items = fs.items ∧ fs.resort.names = fs.names ∧
    fs.resort.x = fs.x ∧ fs.resort.coefs = fs.coefs ∧ fs.resort.intercept = fs.intercept ∧
    fs.resort.sortBy = fs.sortBy ∧ fs.resort.sortInplace = fs.sortInplace ∧ fs.resort.rows.Perm fs.rows := by
  unfold Flipset.resort
  split_ifs
  · exact ⟨rfl, rfl, rfl, rfl, rfl, rfl, rfl, List.perm_insertionSort _ _⟩
  · exact ⟨rfl, rfl, rfl, rfl, rfl, rfl, rfl, .refl _⟩

/-- An accepted item. -/
structure ItemOK (fs : Flipset K) (i : Info K) : Prop where
  act : ∃ a, i.actions = some a ∧ a.length = fs.names.length ∧ fs.x.length = fs.names.length ∧
    fs.coefs.length = fs.names.length ∧ 1 ≤ (flatnonzero a).length ∧ fs.yhat ≠ (fs.predict a : K)
  cost : i.cost.pos = true
  feasible : i.feasible = true

theorem validateItem_ok {i i' : Info K} (h : fs.validateItem i = .ok i') : i' = i ∧ ItemOK fs i := by
  unfold Flipset.validateItem at h
  obtain ⟨a, ha, h⟩ := bind_ok_iff.mp h
  obtain ⟨h1, h⟩ := pyAssert_bind_ok.mp h
  obtain ⟨h2, h⟩ := pyAssert_bind_ok.mp h
  cases h
  unfold Flipset.validateAction at ha
  cases hact : i.actions with
  | none => rw [hact] at ha; cases ha
  | some a' =>
    rw [hact] at ha
    dsimp only at ha
    by_cases hl : a'.length ≠ fs.names.length
    · rw [if_pos hl] at ha; cases ha
    rw [if_neg hl] at ha
    obtain ⟨h3, ha⟩ := pyAssert_bind_ok.mp ha
    by_cases hd : fs.x.length ≠ a'.length ∨ fs.coefs.length ≠ a'.length
    · rw [if_pos hd] at ha; cases ha
    rw [if_neg hd] at ha
    obtain ⟨h4, ha⟩ := pyAssert_bind_ok.mp ha
    have hae : a' = a := by injection ha
    subst hae
    push Not at hl hd
    refine ⟨?_, ⟨a', hact, hl, hd.1.trans hl, hd.2.trans hl, of_decide_eq_true h3, of_decide_eq_true h4⟩, h1, h2⟩
    rw [← hact]

/-- The items that are accepted. -/
theorem validateItem_iff {i : Info K} : fs.validateItem i = .ok i ↔ ItemOK fs i := by
  refine ⟨fun h => (validateItem_ok h).2, fun ⟨⟨a, h1, h2, h3, h4, h5, h6⟩, hc, hf⟩ => ?_⟩
  unfold Flipset.validateItem Flipset.validateAction
  rw [h1]
  dsimp only
  have hd : ¬ (fs.x.length ≠ a.length ∨ fs.coefs.length ≠ a.length) := by
    rw [h3, h4, h2]; simp
  rw [if_neg (not_not.mpr h2), decide_eq_true h5, pyAssert_true, ok_bind, if_neg hd, decide_eq_true h6, pyAssert_true,
    ok_bind, ok_bind, hc, pyAssert_true, ok_bind]
  obtain ⟨⟩ := i
  simp only at h1 hf
  subst h1 hf
  rfl

theorem mapM_validate {l l' : List (Info K)} (h : l.mapM fs.validateItem = .ok l') :
    l' = l ∧ ∀ i ∈ l, ItemOK fs i := by
  induction l generalizing l' with
  | nil => cases h; exact ⟨rfl, by simp⟩
  | cons a l ih =>
    obtain ⟨b, bs, h1, h2, rfl⟩ := mapM_ok_cons.mp h
    obtain ⟨rfl, g1⟩ := validateItem_ok h1
    obtain ⟨rfl, g2⟩ := ih h2
    refine ⟨rfl, fun i hi => ?_⟩
    rcases List.mem_cons.mp hi with rfl | hi
    · exact g1
    · exact g2 i hi

theorem mapM_validate_ok {l : List (Info K)} (h : ∀ i ∈ l, ItemOK fs i) : l.mapM fs.validateItem = .ok l := by
  induction l with
  | nil => rfl
  | cons a l ih =>
    exact mapM_ok_cons.mpr ⟨a, l, validateItem_iff.mpr (h a (by simp)),
      ih fun i hi => h i (List.mem_cons_of_mem _ hi), rfl⟩

/-- The table after appending items, before sorting. -/
def Flipset.appended (fs : Flipset K) (items : List (Info K)) : Flipset K :=
  { fs with items := fs.items ++ items, rows := relabel (fs.rows ++ items.map (fs.itemRow 0)) }

/-- A successful addition. -/
theorem flipAdd_ok {items : List (Info K)} (h : fs.add items = .ok fs') :
    (∀ i ∈ items, ItemOK fs i) ∧
    fs' = (if items.isEmpty then fs else (fs.appended items).resort) := by
  unfold Flipset.add at h
  obtain ⟨l, hl, h2⟩ := bind_ok_iff.mp h
  clear h
  obtain ⟨rfl, hok⟩ := mapM_validate hl
  rename' h2 => h
  dsimp only at h
  refine ⟨hok, ?_⟩
  by_cases he : l.isEmpty = true
  · rw [if_pos he] at h ⊢
    cases h
    rw [List.isEmpty_iff.mp he, List.append_nil]
  · rw [if_neg he] at h ⊢
    cases h
    rfl

/-- The builder that `populate` works with: the stored one, or a new one; `A` is then the action set. -/
def Flipset.Made (ext : Ext K) (fs : Flipset K) (ct : CostType) (A : ActionSet K) (b0 : Builder K) : Prop :=
  (fs.builder = some b0 ∧ A = fs.aset) ∨ (fs.builder = none ∧ ∃ c,
    mkBuilder fs.backend ct fs.aset fs.coefs fs.intercept = .ok c ∧ c.setX ext fs.x = (b0, .ok ()) ∧ A = b0.aset)

/-- The outcomes of `populate`. -/
theorem populate_cases {fuel : ℕ} {total : Option ℕ} {et : EnumType} {ct : CostType} {r : Except Err Unit}
    (h : fs.populate ext o fuel total et ct = some (fs', r)) :
    (∃ er, r = .error er ∧ fs' = fs ∧ fs.builder = none ∧
      mkBuilder fs.backend ct fs.aset fs.coefs fs.intercept = .error er) ∨
    (∃ er c b0, r = .error er ∧ fs.builder = none ∧
      mkBuilder fs.backend ct fs.aset fs.coefs fs.intercept = .ok c ∧ c.setX ext fs.x = (b0, .error er) ∧
      fs' = { fs with aset := b0.aset }) ∨
    (∃ er A b0, r = .error er ∧ fs.Made ext ct A b0 ∧ b0.populate o et fuel total = .error er ∧
      fs' = { fs with aset := A, builder := some b0 }) ∨
    (∃ er A b0 b infos, r = .error er ∧ fs.Made ext ct A b0 ∧ b0.populate o et fuel total = .ok (some (b, infos)) ∧
      ({ fs with aset := A, builder := some b } : Flipset K).add infos = .error er ∧
      fs' = { fs with aset := A, builder := some b }) ∨
    (∃ A b0 b infos, r = .ok () ∧ fs.Made ext ct A b0 ∧ b0.populate o et fuel total = .ok (some (b, infos)) ∧
      ({ fs with aset := A, builder := some b } : Flipset K).add infos = .ok fs') := by
  unfold Flipset.populate at h
  cases hb : fs.builder with
  | some b0 =>
    have hm : fs.Made ext ct fs.aset b0 := Or.inl ⟨hb, rfl⟩
    simp only [hb] at h
    cases hp : b0.populate o et fuel total with
    | error er =>
      simp only [hp] at h; cases h
      refine Or.inr (Or.inr (Or.inl ⟨er, fs.aset, b0, rfl, hm, hp, ?_⟩))
      rw [← hb]
    | ok q =>
      simp only [hp] at h
      cases q with
      | none => cases h
      | some q =>
        obtain ⟨b, infos⟩ := q
        dsimp only at h
        cases ha : ({ fs with builder := some b } : Flipset K).add infos with
        | error er =>
          simp only [ha] at h; cases h
          exact Or.inr (Or.inr (Or.inr (Or.inl ⟨er, fs.aset, b0, b, infos, rfl, hm, hp, ha, rfl⟩)))
        | ok fs2 =>
          simp only [ha] at h; cases h
          exact Or.inr (Or.inr (Or.inr (Or.inr ⟨fs.aset, b0, b, infos, rfl, hm, hp, ha⟩)))
  | none =>
    simp only [hb] at h
    cases hm : mkBuilder fs.backend ct fs.aset fs.coefs fs.intercept with
    | error er => simp only [hm] at h; cases h; exact Or.inl ⟨er, rfl, rfl, rfl, rfl⟩
    | ok c =>
      simp only [hm] at h
      cases hx : c.setX ext fs.x with
      | mk b0 res =>
        cases res with
        | error er =>
          simp only [hx] at h; cases h
          refine Or.inr (Or.inl ⟨er, c, b0, rfl, rfl, rfl, hx, ?_⟩)
          rw [← hb]
        | ok u =>
          simp only [hx] at h
          have hM : fs.Made ext ct b0.aset b0 := Or.inr ⟨hb, c, hm, hx, rfl⟩
          cases hp : b0.populate o et fuel total with
          | error er =>
            simp only [hp] at h; cases h
            exact Or.inr (Or.inr (Or.inl ⟨er, b0.aset, b0, rfl, hM, hp, rfl⟩))
          | ok q =>
            simp only [hp] at h
            cases q with
            | none => cases h
            | some q =>
              obtain ⟨b, infos⟩ := q
              dsimp only at h
              cases ha : ({ fs with aset := b0.aset, builder := some b } : Flipset K).add infos with
              | error er =>
                simp only [ha] at h; cases h
                exact Or.inr (Or.inr (Or.inr (Or.inl ⟨er, b0.aset, b0, b, infos, rfl, hM, hp, ha, rfl⟩)))
              | ok fs2 =>
                simp only [ha] at h; cases h
                exact Or.inr (Or.inr (Or.inr (Or.inr ⟨b0.aset, b0, b, infos, rfl, hM, hp, ha⟩)))

/-- In short: the table and items change only through `_add`. -/
theorem populate_flip {fuel : ℕ} {total : Option ℕ} {et : EnumType} {ct : CostType} {r : Except Err Unit}
    (h : fs.populate ext o fuel total et ct = some (fs', r)) :
    (∃ er A b, r = .error er ∧ fs' = { fs with aset := A, builder := b }) ∨
    (∃ A b0 b infos, r = .ok () ∧ b0.populate o et fuel total = .ok (some (b, infos)) ∧
      ({ fs with aset := A, builder := some b } : Flipset K).add infos = .ok fs' ∧ fs.Made ext ct A b0) := by
  rcases populate_cases h with ⟨er, h1, rfl, -⟩ | ⟨er, c, b0, h1, -, -, -, rfl⟩ | ⟨er, A, b0, h1, -, -, rfl⟩ |
    ⟨er, A, b0, b, infos, h1, -, -, -, rfl⟩ | ⟨A, b0, b, infos, h1, h2, h3, h4⟩
  · exact Or.inl ⟨er, fs'.aset, fs'.builder, h1, rfl⟩
  · exact Or.inl ⟨er, _, fs.builder, h1, rfl⟩
  · exact Or.inl ⟨er, _, _, h1, rfl⟩
  · exact Or.inl ⟨er, _, _, h1, rfl⟩
  · exact Or.inr ⟨A, b0, b, infos, h1, h3, h4, h2⟩

theorem flatnonzero_pairwise (a : List K) : (flatnonzero a).Pairwise (· < ·) :=
  List.Pairwise.sublist List.filter_sublist List.pairwise_lt_range

theorem mem_flatnonzero {a : List K} {j : ℕ} : j ∈ flatnonzero a ↔ j < a.length ∧ a.getD j 0 ≠ 0 := by
  unfold flatnonzero
  rw [List.mem_filter, List.mem_range, decide_eq_true_eq]

theorem flatnonzero_length (a : List K) : (flatnonzero a).length = numChanged a := by
  unfold flatnonzero numChanged
  rw [← List.countP_eq_length_filter]
  have h : a = (List.range a.length).map fun j => a.getD j 0 := by
    apply List.ext_getElem?
    intro i
    rw [List.getElem?_map]
    by_cases hi : i < a.length
    · rw [List.getElem?_range hi, List.getElem?_eq_getElem hi, Option.map_some, List.getD_eq_getElem _ _ hi]
    · rw [List.getElem?_eq_none (by omega), List.getElem?_eq_none (by simpa using hi)]; rfl
  conv_rhs => rw [h]
  rw [List.countP_map]
  rfl

theorem itemRow_describes {i : Info K} (h : ItemOK fs i) (l : ℕ) :
    DescribesItem fs.names fs.x fs.coefs fs.intercept i (fs.itemRow l i) := by
  obtain ⟨⟨a, h1, h2, h3, h4, h5, -⟩, hc, hf⟩ := h
  refine ⟨⟨a, h1, h2, h3, h4, ?_⟩, rfl, rfl⟩
  unfold Flipset.itemRow Flipset.predict Flipset.score
  rw [h1]
  dsimp only [Option.getD_some]
  refine ⟨flatnonzero_pairwise a, fun j => mem_flatnonzero, rfl, rfl, ?_, flatnonzero_length a, add_comm _ _,
    by rw [add_comm]⟩
  apply List.map_congr_left
  intro j hj
  have hja := (mem_flatnonzero.mp hj).1
  have hjx : j < fs.x.length := by omega
  unfold vadd
  rw [List.getD_eq_getElem _ _ hjx, List.getD_eq_getElem _ _ hja,
    List.getD_eq_getElem _ _ (by rw [List.length_zipWith]; omega), List.getElem_zipWith]

/-- Rows without their labels. -/
def FlipRow.bare (r : FlipRow K) : FlipRow K := { r with label := 0 }

theorem relabel_bare (rows : List (FlipRow K)) : (relabel rows).map FlipRow.bare = rows.map FlipRow.bare := by
  unfold relabel
  rw [List.map_map]
  have h1 : (FlipRow.bare ∘ fun p : FlipRow K × ℕ => { p.1 with label := p.2 })
      = FlipRow.bare ∘ Prod.fst := by funext p; rfl
  rw [h1, ← List.map_map, List.zipIdx_map_fst]

theorem relabel_labels (rows : List (FlipRow K)) : (relabel rows).map (·.label) = List.range rows.length := by
  unfold relabel
  rw [List.map_map]
  have h1 : ((fun r : FlipRow K => r.label) ∘ fun p : FlipRow K × ℕ => { p.1 with label := p.2 })
      = Prod.snd := by funext p; rfl
  rw [h1, List.zipIdx_map_snd, List.range_eq_range']

theorem relabel_length (rows : List (FlipRow K)) : (relabel rows).length = rows.length := by
  unfold relabel; simp

/-! ## Order -/

/-- Finite costs. -/
def FinCost (r : FlipRow K) : Prop := ∃ c, r.cost = .fin c

theorem SortCol.le_iff (c : SortCol) {r s : FlipRow K} (hr : FinCost r) (hs : FinCost s) :
    c.le r s = true ↔ c.Before r s ∨ c.Same r s := by
  obtain ⟨u, hu⟩ := hr
  obtain ⟨v, hv⟩ := hs
  cases c with
  | cost =>
    unfold SortCol.le SortCol.Before SortCol.Same
    dsimp only
    rw [hu, hv]
    unfold XV.le
    rw [decide_eq_true_eq, le_iff_lt_or_eq]
    simp
  | size => simp [SortCol.le, SortCol.Before, SortCol.Same, le_iff_lt_or_eq]
  | scoreNew => simp [SortCol.le, SortCol.Before, SortCol.Same, le_iff_lt_or_eq]
  | yhatNew => simp [SortCol.le, SortCol.Before, SortCol.Same, le_iff_lt_or_eq]
  | feasible =>
    unfold SortCol.le SortCol.Before SortCol.Same
    dsimp only
    cases r.feasible <;> cases s.feasible <;> simp
  | flipped =>
    unfold SortCol.le SortCol.Before SortCol.Same
    dsimp only
    cases r.flipped <;> cases s.flipped <;> simp

theorem SortCol.trichotomy (c : SortCol) {r s : FlipRow K} (hr : FinCost r) (hs : FinCost s) :
    (c.Before r s ∧ c.le r s = true ∧ c.le s r = false) ∨ (c.Same r s ∧ c.le r s = true ∧ c.le s r = true) ∨
    (c.Before s r ∧ c.le r s = false ∧ c.le s r = true) := by
  obtain ⟨u, hu⟩ := hr
  obtain ⟨v, hv⟩ := hs
  cases c with
  | cost =>
    unfold SortCol.le SortCol.Before SortCol.Same
    dsimp only
    rw [hu, hv]
    unfold XV.le
    rcases lt_trichotomy u v with h | h | h
    · left; exact ⟨⟨u, v, rfl, rfl, h⟩, decide_eq_true h.le, decide_eq_false (not_le.mpr h)⟩
    · right; left; subst h; exact ⟨rfl, decide_eq_true le_rfl, decide_eq_true le_rfl⟩
    · right; right; exact ⟨⟨v, u, rfl, rfl, h⟩, decide_eq_false (not_le.mpr h), decide_eq_true h.le⟩
  | size =>
    unfold SortCol.le SortCol.Before SortCol.Same
    dsimp only
    rcases lt_trichotomy r.size s.size with h | h | h
    · left; exact ⟨h, decide_eq_true h.le, decide_eq_false (not_le.mpr h)⟩
    · right; left; exact ⟨h, decide_eq_true h.le, decide_eq_true h.ge⟩
    · right; right; exact ⟨h, decide_eq_false (not_le.mpr h), decide_eq_true h.le⟩
  | scoreNew =>
    unfold SortCol.le SortCol.Before SortCol.Same
    dsimp only
    rcases lt_trichotomy r.scoreNew s.scoreNew with h | h | h
    · left; exact ⟨h, decide_eq_true h.le, decide_eq_false (not_le.mpr h)⟩
    · right; left; exact ⟨h, decide_eq_true h.le, decide_eq_true h.ge⟩
    · right; right; exact ⟨h, decide_eq_false (not_le.mpr h), decide_eq_true h.le⟩
  | yhatNew =>
    unfold SortCol.le SortCol.Before SortCol.Same
    dsimp only
    rcases lt_trichotomy r.yhatNew s.yhatNew with h | h | h
    · left; exact ⟨h, decide_eq_true h.le, decide_eq_false (not_le.mpr h)⟩
    · right; left; exact ⟨h, decide_eq_true h.le, decide_eq_true h.ge⟩
    · right; right; exact ⟨h, decide_eq_false (not_le.mpr h), decide_eq_true h.le⟩
  | feasible =>
    unfold SortCol.le SortCol.Before SortCol.Same
    dsimp only
    cases r.feasible <;> cases s.feasible <;> simp
  | flipped =>
    unfold SortCol.le SortCol.Before SortCol.Same
    dsimp only
    cases r.flipped <;> cases s.flipped <;> simp

theorem rowLe_iff {cols : List SortCol} {r s : FlipRow K} (hr : FinCost r) (hs : FinCost s) :
    rowLe cols r s = true ↔ OrderedBy cols r s := by
  induction cols with
  | nil => simp [rowLe, OrderedBy]
  | cons c cs ih =>
    unfold rowLe OrderedBy
    rcases c.trichotomy hr hs with ⟨h1, h2, h3⟩ | ⟨h1, h2, h3⟩ | ⟨h1, h2, h3⟩
    · rw [h2, h3]; simp [h1]
    · rw [h2, h3]
      simp only [if_true]
      rw [ih]
      constructor
      · exact fun h => Or.inr ⟨h1, h⟩
      · rintro (h | ⟨-, h⟩)
        · exfalso
          have a1 := (c.le_iff hs hr).mp h3
          -- a strict difference and equality exclude each other
          rcases c.trichotomy hr hs with ⟨-, -, g⟩ | ⟨-, -, -⟩ | ⟨-, g, -⟩
          · rw [g] at h3; cases h3
          · exact absurd h (by
              obtain ⟨u, hu⟩ := hr; obtain ⟨v, hv⟩ := hs
              cases c <;> simp only [SortCol.Before, SortCol.Same] at h1 ⊢
              · rintro ⟨u', v', e1, e2, hlt⟩
                rw [h1, e2] at e1; cases e1; exact lt_irrefl _ hlt
              all_goals simp [h1])
          · rw [g] at h2; cases h2
        · exact h
    · rw [h2]
      simp only [Bool.false_eq_true, if_false, false_iff, not_or, not_and]
      have hnle : ¬ (c.Before r s ∨ c.Same r s) := by
        rw [← c.le_iff hr hs, h2]; simp
      push Not at hnle
      exact ⟨hnle.1, fun h => absurd h hnle.2⟩

end Recourse
