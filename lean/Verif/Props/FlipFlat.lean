import Verif.Props.FlipEx

/-!
# Flattened flipsets: C60
-/

set_option linter.unusedSectionVars false

namespace Recourse

variable {K : Type} [Field K] [LinearOrder K] [IsStrictOrderedRing K] [FloorRing K]
  {ext : Ext K} {o : Oracle K} {fs fs' : Flipset K} {ord : Option (List SortCol)}

/-! ## Specification -/

/-- The lines for an item with label `k`: one for each changed feature, in the order of the columns, with the
feature's name, current value and required value. -/
def itemLines (names : List String) (x : List K) (k : ℕ) (i : Info K) : List (FlatLine K) :=
  match i.actions with
  | none => []
  | some a => ((List.range a.length).filter fun j => decide (a.getD j 0 ≠ 0)).map fun j =>
      ⟨k, names.getD j "", x.getD j 0, x.getD j 0 + a.getD j 0⟩

/-! ## Stable sorting by a key -/

section
variable {α : Type} (key : α → ℕ)

theorem orderedInsert_filter_ne (a : α) (l : List α) (k : ℕ) (h : key a ≠ k) :
    (l.orderedInsert (fun a b => key a ≤ key b) a).filter (fun b => decide (key b = k))
      = l.filter (fun b => decide (key b = k)) := by
  induction l with
  | nil => simp [List.orderedInsert, h]
  | cons b l ih =>
    simp only [List.orderedInsert]
    split_ifs with hab
    · rw [List.filter_cons, if_neg (by simpa using h)]
    · rw [List.filter_cons, ih, List.filter_cons]

theorem orderedInsert_filter_eq (a : α) (l : List α) (k : ℕ) (h : key a = k) :
    (l.orderedInsert (fun a b => key a ≤ key b) a).filter (fun b => decide (key b = k))
      = a :: l.filter (fun b => decide (key b = k)) := by
  induction l with
  | nil => simp [List.orderedInsert, h]
  | cons b l ih =>
    simp only [List.orderedInsert]
    split_ifs with hab
    · rw [List.filter_cons, if_pos (by simpa using h)]
    · rw [List.filter_cons, ih, List.filter_cons]
      have : key b ≠ k := by omega
      rw [if_neg (by simpa using this), if_neg (by simpa using this)]

theorem flatten_single (l : List α) : (l.map fun a => [a]).flatten = l := by
  induction l with
  | nil => rfl
  | cons a l ih => rw [List.map_cons, List.flatten_cons, ih]; rfl

/-- Sorting by a key keeps the order of the elements with equal keys. -/
theorem insertionSort_filter (l : List α) (k : ℕ) :
    (l.insertionSort (fun a b => key a ≤ key b)).filter (fun b => decide (key b = k))
      = l.filter (fun b => decide (key b = k)) := by
  induction l with
  | nil => rfl
  | cons a l ih =>
    rw [List.insertionSort_cons]
    by_cases h : key a = k
    · rw [orderedInsert_filter_eq key a _ k h, ih, List.filter_cons, if_pos (by simpa using h)]
    · rw [orderedInsert_filter_ne key a _ k h, ih, List.filter_cons, if_neg (by simpa using h)]

theorem sorted_split (l : List α) (h : l.Pairwise fun a b => key a ≤ key b) (n : ℕ) (hn : ∀ a ∈ l, key a ≤ n) :
    l = l.filter (fun a => decide (key a < n)) ++ l.filter (fun a => decide (key a = n)) := by
  induction l with
  | nil => rfl
  | cons a l ih =>
    rw [List.pairwise_cons] at h
    have ih := ih h.2 fun b hb => hn b (List.mem_cons_of_mem _ hb)
    rw [List.filter_cons, List.filter_cons]
    by_cases ha : key a < n
    · rw [if_pos (by simpa using ha), if_neg (by simp; omega), List.cons_append, ← ih]
    · have hk : key a = n := le_antisymm (hn a List.mem_cons_self) (not_lt.mp ha)
      rw [if_neg (by simpa using ha), if_pos (by simpa using hk)]
      have h0 : l.filter (fun a => decide (key a < n)) = [] := by
        rw [List.filter_eq_nil_iff]
        intro b hb
        have := h.1 b hb
        simp; omega
      rw [h0, List.nil_append] at ih ⊢
      rw [← ih]

/-- A list sorted by a key is the concatenation of its groups. -/
theorem sorted_groups (n : ℕ) (l : List α) (h : l.Pairwise fun a b => key a ≤ key b) (hn : ∀ a ∈ l, key a < n) :
    l = (List.range n).flatMap fun k => l.filter (fun a => decide (key a = k)) := by
  induction n generalizing l with
  | zero =>
    cases l with
    | nil => rfl
    | cons a l => exact absurd (hn a List.mem_cons_self) (by omega)
  | succ n ih =>
    rw [List.range_succ, List.flatMap_append]
    have h1 := sorted_split key l h n fun a ha => Nat.lt_succ_iff.mp (hn a ha)
    have h2 := ih (l.filter fun a => decide (key a < n)) (h.filter _) (by simp)
    have h3 : ((List.range n).flatMap fun k => (l.filter fun a => decide (key a < n)).filter (fun a => decide (key a = k)))
        = (List.range n).flatMap fun k => l.filter (fun a => decide (key a = k)) := by
      rw [List.flatMap_def, List.flatMap_def]
      congr 1
      apply List.map_congr_left
      intro k hk
      rw [List.filter_filter]
      apply List.filter_congr
      intro a _
      have hk := List.mem_range.mp hk
      by_cases ha : key a = k
      · simp [ha, hk]
      · simp [ha]
    rw [← h3, ← h2]
    simp only [List.flatMap_cons, List.flatMap_nil, List.append_nil]
    exact h1

/-- A list whose keys are `0, …, n - 1` in some order has exactly one element for each. -/
theorem filter_key {l : List α} {n : ℕ} (h : (l.map key).Perm (List.range n)) {k : ℕ} (hk : k < n) :
    ∃ a, l.filter (fun a => decide (key a = k)) = [a] := by
  have h1 : (l.filter fun a => decide (key a = k)).length = 1 := by
    have h2 := h.countP_eq (fun i => decide (i = k))
    rw [List.countP_map, List.countP_eq_length_filter] at h2
    have h3 : (List.range n).countP (fun i => decide (i = k)) = 1 := by
      have := List.count_range (n := n) (a := k)
      simp only [List.count] at this
      rw [if_pos hk] at this
      rw [← this]
      apply List.countP_congr
      intro i _
      simp
    rw [← h3, ← h2]
    rfl
  exact List.length_eq_one_iff.mp h1

end

/-! ## Lines of rows -/

theorem lines_bare (r : FlipRow K) (k : ℕ) (h : r.label = k) :
    r.lines = (r.bare.lines).map fun l => { l with item := k } := by
  unfold FlipRow.lines FlipRow.bare
  rw [List.map_map]
  subst h
  rfl

theorem zip_three {α β γ δ : Type} (l : List α) (f : α → β) (g : α → γ) (h : α → δ) :
    (l.map f).zip ((l.map g).zip (l.map h)) = l.map fun a => (f a, g a, h a) := by
  induction l with
  | nil => rfl
  | cons a l ih => simp [ih]

theorem itemRow_lines {i : Info K} (k : ℕ) (h : i.actions ≠ none) :
    ((fs.itemRow 0 i).lines).map (fun l => { l with item := k }) = itemLines fs.names fs.x k i := by
  cases ha : i.actions with
  | none => exact absurd ha h
  | some a =>
    unfold itemLines Flipset.itemRow FlipRow.lines flatnonzero
    dsimp only
    rw [ha]
    dsimp only
    rw [Option.getD_some, zip_three, List.map_map, List.map_map]
    rfl

/-! ## C60 -/

/-- **C60.**  After every history `to_flat_df()` lists, for one numbering `0, …, n - 1` of all stored items,
the lines of the items in the order of their numbers: one line for each changed feature with its name, current
and required value.  The call changes neither items nor (up to order) the table, and the numbers are the
labels of the rows. -/
theorem C60_flat (h : fs.Reachable ext ord) :
    (∃ items' : List (Info K), items'.Perm fs.items ∧
      fs.toFlat.2 = items'.zipIdx.flatMap (fun p => itemLines fs.names fs.x p.2 p.1)) ∧
    fs.toFlat.1.items = fs.items ∧ fs.toFlat.1.rows.Perm fs.rows := by
  obtain ⟨h1, h2, h3, -, -, -, -, h8⟩ := resort_fields fs
  refine ⟨?_, h1, h8⟩
  have hi := (Flipset.Reachable.resort h).inv
  have hnames : fs.resort.names = fs.names := h2
  have hx : fs.resort.x = fs.x := h3
  have hgen : ∃ items' : List (Info K), items'.Perm fs.resort.items ∧
      fs.toFlat.2 = items'.zipIdx.flatMap (fun p => itemLines fs.resort.names fs.resort.x p.2 p.1) := by
    unfold Flipset.toFlat
    dsimp only
    generalize fs.resort = fs at hi ⊢
    set n := fs.rows.length with hn
    -- the row of each label
    have hrow : ∀ k, ∃ r : FlipRow K, k < n → fs.rows.filter (fun r => decide (r.label = k)) = [r] := by
      intro k
      by_cases hk : k < n
      · obtain ⟨r, hr⟩ := filter_key (fun r : FlipRow K => r.label) hi.labels hk
        exact ⟨r, fun _ => hr⟩
      · exact ⟨⟨0, .nan, 0, [], [], [], [], 0, 0, false, false⟩, fun h => absurd h hk⟩
    choose ρ hρ using hrow
    -- rows in the order of the labels
    have hsort : fs.rows.Perm ((List.range n).map ρ) := by
      have e1 := sorted_groups (fun r : FlipRow K => r.label) n
        (fs.rows.insertionSort fun r s => r.label ≤ s.label)
        (by
          have : Std.Total (fun r s : FlipRow K => r.label ≤ s.label) := ⟨fun r s => le_total _ _⟩
          have : IsTrans (FlipRow K) (fun r s : FlipRow K => r.label ≤ s.label) := ⟨fun _ _ _ => le_trans⟩
          exact List.pairwise_insertionSort _ _)
        (by
          intro r hr
          have hr := (List.perm_insertionSort _ _).mem_iff.mp hr
          have := hi.labels.mem_iff.mp (List.mem_map_of_mem (f := (·.label)) hr)
          exact List.mem_range.mp this)
      have e2 : ((List.range n).flatMap fun k =>
          (fs.rows.insertionSort fun r s => r.label ≤ s.label).filter (fun r => decide (r.label = k)))
          = (List.range n).map ρ := by
        rw [List.flatMap_def]
        have : ((List.range n).map fun k =>
            (fs.rows.insertionSort fun r s => r.label ≤ s.label).filter (fun r => decide (r.label = k)))
            = ((List.range n).map ρ).map fun r => [r] := by
          rw [List.map_map]
          apply List.map_congr_left
          intro k hk
          rw [insertionSort_filter (fun r : FlipRow K => r.label)]
          exact hρ k (List.mem_range.mp hk)
        rw [this]
        exact flatten_single _
      rw [← e2, ← e1]
      exact (List.perm_insertionSort _ _).symm
    -- the items in this order
    have hperm : ((List.range n).map ρ |>.map FlipRow.bare).Perm (fs.items.map (fs.itemRow 0)) :=
      ((hsort.map _).symm).trans hi.rows.symm
    have hf : List.Forall₂ (fun (L : FlipRow K) (i : Info K) => L = fs.itemRow 0 i) (fs.items.map (fs.itemRow 0)) fs.items := by
      rw [List.forall₂_map_left_iff]
      exact List.forall₂_same.mpr fun _ _ => rfl
    obtain ⟨items', hf', hp'⟩ := List.perm_comp_forall₂ hperm hf
    refine ⟨items', hp', ?_⟩
    have hlen : items'.length = n := by
      have := hf'.length_eq
      simpa using this.symm
    have hget : ∀ (k : ℕ) (i : Info K), items'[k]? = some i → (ρ k).bare = fs.itemRow 0 i := by
      intro k i hk
      have hk' : k < items'.length := (List.getElem?_eq_some_iff.mp hk).1
      have := List.Forall₂.get hf' (i := k) (by simpa [hlen] using hk') hk'
      simp only [List.get_eq_getElem, List.getElem_map, List.getElem_range] at this
      rw [this]
      congr 1
      exact (List.getElem?_eq_some_iff.mp hk).2
    -- the lines
    set lines := fs.rows.flatMap FlipRow.lines with hlines
    have hitem : ∀ (r : FlipRow K) (l : FlatLine K), l ∈ r.lines → l.item = r.label := by
      intro r l hl
      unfold FlipRow.lines at hl
      obtain ⟨q, -, rfl⟩ := List.mem_map.mp hl
      rfl
    have hfil : ∀ k, k < n → lines.filter (fun l => decide (l.item = k)) = (ρ k).lines := by
      intro k hk
      have e1 : lines.filter (fun l => decide (l.item = k))
          = (fs.rows.filter fun r => decide (r.label = k)).flatMap FlipRow.lines := by
        rw [hlines]
        induction fs.rows with
        | nil => rfl
        | cons r rs ih =>
          rw [List.flatMap_cons, List.filter_append, ih, List.filter_cons]
          by_cases hr : r.label = k
          · rw [if_pos (by simpa using hr), List.flatMap_cons]
            congr 1
            rw [List.filter_eq_self]
            intro l hl
            simpa [hitem r l hl] using hr
          · rw [if_neg (by simpa using hr)]
            have : r.lines.filter (fun l => decide (l.item = k)) = [] := by
              rw [List.filter_eq_nil_iff]
              intro l hl
              simpa [hitem r l hl] using hr
            rw [this, List.nil_append]
      rw [e1, hρ k hk]
      simp
    have hlt : ∀ l ∈ lines, l.item < n := by
      intro l hl
      obtain ⟨r, hr, hl⟩ := List.mem_flatMap.mp hl
      rw [hitem r l hl]
      exact List.mem_range.mp (hi.labels.mem_iff.mp (List.mem_map_of_mem (f := (·.label)) hr))
    rw [sorted_groups (fun l : FlatLine K => l.item) n (lines.insertionSort fun a b => a.item ≤ b.item)
      (by
        have : Std.Total (fun r s : FlatLine K => r.item ≤ s.item) := ⟨fun r s => le_total _ _⟩
        have : IsTrans (FlatLine K) (fun r s : FlatLine K => r.item ≤ s.item) := ⟨fun _ _ _ => le_trans⟩
        exact List.pairwise_insertionSort _ _)
      (fun l hl => hlt l ((List.perm_insertionSort _ _).mem_iff.mp hl))]
    rw [List.flatMap_def, List.flatMap_def]
    congr 1
    apply List.ext_getElem?
    intro k
    rw [List.getElem?_map, List.getElem?_map, List.getElem?_zipIdx]
    by_cases hk : k < n
    · have hk2 : k < items'.length := by omega
      rw [List.getElem?_range hk, List.getElem?_eq_getElem hk2]
      simp only [Option.map_some, Nat.zero_add]
      congr 1
      rw [insertionSort_filter (fun l : FlatLine K => l.item), hfil k hk]
      have hlab : (ρ k).label = k := by
        have : ρ k ∈ fs.rows.filter (fun r => decide (r.label = k)) := by rw [hρ k hk]; simp
        simpa using (List.mem_filter.mp this).2
      rw [lines_bare _ k hlab, hget k _ (List.getElem?_eq_getElem hk2)]
      apply itemRow_lines
      have hmem : items'[k] ∈ fs.items := hp'.mem_iff.mp (List.getElem_mem hk2)
      obtain ⟨⟨⟨a, ha, -⟩, -, -⟩, -⟩ := hi.items _ hmem
      rw [ha]; simp
    · have hk2 : ¬ k < items'.length := by omega
      rw [List.getElem?_eq_none (by simpa using hk), List.getElem?_eq_none (by omega)]
      rfl
  rw [hnames, hx, h1] at hgen
  exact hgen

/-- The full C60 is false for `to_latex()`: on a flipset without items it raises `AttributeError` (`to_flat_df()`
returns a list then). -/
theorem C60_latex_refuted (h : fs.Reachable ext ord) : fs.toLatex.2 = .error .attribute ↔ fs.items = [] := by
  have hl := (C49_table (Flipset.Reachable.flat h)).2.2
  have hit := (C60_flat h).2.1
  unfold Flipset.len at hl
  rw [hit] at hl
  unfold Flipset.toLatex
  dsimp only
  by_cases he : fs.toFlat.1.rows.isEmpty = true
  · rw [if_pos he]
    rw [List.isEmpty_iff.mp he] at hl
    exact ⟨fun _ => List.length_eq_zero_iff.mp hl, fun _ => rfl⟩
  · rw [if_neg he]
    refine ⟨(fun h => by cases h), fun h0 => ?_⟩
    rw [h0] at hl
    exact absurd (List.isEmpty_iff.mpr (List.length_eq_zero_iff.mp hl.symm)) he

end Recourse
