import Verif.Lemmas.Flip
import Verif.Lemmas.Audit
import Verif.Props.Optimal
import Verif.Props.Enum

/-!
# Flipsets: C49 – C53, C58
-/

set_option linter.unusedSectionVars false

namespace Recourse

variable {K : Type} [Field K] [LinearOrder K] [IsStrictOrderedRing K] [FloorRing K]
  {ext : Ext K} {o : Oracle K} {fs fs' : Flipset K} {ord : Option (List SortCol)}

/-! ## Sorting -/

theorem XV.le_total (a b : XV K) : XV.le a b = true ∨ XV.le b a = true := by
  cases a <;> cases b <;> simp [XV.le, _root_.le_total]

theorem XV.le_trans {a b c : XV K} (h : XV.le a b = true) (h' : XV.le b c = true) : XV.le a c = true := by
  cases a <;> cases b <;> cases c <;> simp_all [XV.le]
  exact _root_.le_trans h h'

theorem SortCol.le_total (c : SortCol) (r s : FlipRow K) : c.le r s = true ∨ c.le s r = true := by
  cases c <;> simp only [SortCol.le, decide_eq_true_eq]
  · exact XV.le_total _ _
  · exact _root_.le_total _ _
  · exact _root_.le_total _ _
  · exact _root_.le_total _ _
  · cases r.feasible <;> cases s.feasible <;> simp
  · cases r.flipped <;> cases s.flipped <;> simp

theorem SortCol.le_trans (c : SortCol) {r s q : FlipRow K} (h : c.le r s = true) (h' : c.le s q = true) :
    c.le r q = true := by
  cases c <;> simp only [SortCol.le, decide_eq_true_eq] at *
  · exact XV.le_trans h h'
  · exact _root_.le_trans h h'
  · exact _root_.le_trans h h'
  · exact _root_.le_trans h h'
  · cases hr : r.feasible <;> cases hs : s.feasible <;> cases hq : q.feasible <;> simp_all
  · cases hr : r.flipped <;> cases hs : s.flipped <;> cases hq : q.flipped <;> simp_all

theorem rowLe_total (cols : List SortCol) (r s : FlipRow K) : rowLe cols r s = true ∨ rowLe cols s r = true := by
  induction cols with
  | nil => simp [rowLe]
  | cons c cs ih =>
    unfold rowLe
    cases h1 : c.le r s <;> cases h2 : c.le s r <;> simp
    · rcases c.le_total r s with h | h
      · rw [h1] at h; cases h
      · rw [h2] at h; cases h
    · exact ih

theorem rowLe_trans (cols : List SortCol) {r s q : FlipRow K} (h : rowLe cols r s = true)
    (h' : rowLe cols s q = true) : rowLe cols r q = true := by
  induction cols with
  | nil => rfl
  | cons c cs ih =>
    unfold rowLe at h h' ⊢
    cases h1 : c.le r s <;> cases h2 : c.le s q <;> simp_all
    have h3 := c.le_trans h1 h2
    rw [h3]
    cases h4 : c.le q r
    · exact ⟨rfl, Or.inl rfl⟩
    refine ⟨rfl, Or.inr ?_⟩
    have h5 : c.le s r = true := c.le_trans h2 h4
    have h6 : c.le q s = true := c.le_trans h4 h1
    rw [h5] at h; rw [h6] at h'
    exact ih (by simpa using h) (by simpa using h')

theorem sortRows_pairwise (cols : List SortCol) (rows : List (FlipRow K)) :
    (sortRows cols rows).Pairwise fun r s => rowLe cols r s = true := by
  have : Std.Total (fun r s : FlipRow K => rowLe cols r s = true) := ⟨rowLe_total cols⟩
  have : IsTrans (FlipRow K) (fun r s : FlipRow K => rowLe cols r s = true) := ⟨fun _ _ _ => rowLe_trans cols⟩
  exact List.pairwise_insertionSort _ _

/-! ## Infos -/

theorem solutionInfo_fin (b : Builder K) (h : b.solutionInfo.feasible = true) :
    ∃ c, b.solutionInfo.cost = .fin c := by
  unfold Builder.solutionInfo at h ⊢
  cases h1 : b.reported <;> cases h2 : b.mip <;> simp only [h1, h2] at h ⊢
  · cases h
  · cases h
  · cases h
  · exact ⟨_, rfl⟩

theorem popLoop_fin {et : EnumType} {fuel : ℕ} {total : Option ℕ} {b b' : Builder K} {acc l : List (Info K)}
    (h : b.popLoop o et fuel total acc = some (b', l))
    (hacc : ∀ i ∈ acc, i.feasible = true → ∃ c, i.cost = .fin c) :
    ∀ i ∈ l, i.feasible = true → ∃ c, i.cost = .fin c := by
  induction fuel generalizing total b acc with
  | zero =>
    cases total with
    | none => simp [Builder.popLoop] at h
    | some k => cases k with
      | zero => simp only [Builder.popLoop] at h; cases h; exact hacc
      | succ k => simp [Builder.popLoop] at h
  | succ fuel ih =>
    have step : ∀ total' : Option ℕ, (match (b.solve o).reported with
        | none => some (b.solve o, acc)
        | some σ => Builder.popLoop o et fuel total' ((b.solve o).removeSolution et σ)
            (acc ++ [(b.solve o).solutionInfo])) = some (b', l) →
        ∀ i ∈ l, i.feasible = true → ∃ c, i.cost = .fin c := by
      intro total' h
      cases hr : (b.solve o).reported with
      | none => rw [hr] at h; cases h; exact hacc
      | some σ =>
        rw [hr] at h
        refine ih h fun i hi => ?_
        rcases List.mem_append.mp hi with hi | hi
        · exact hacc i hi
        · rw [List.mem_singleton.mp hi]; exact solutionInfo_fin _
    cases total with
    | none => exact step none h
    | some k => cases k with
      | zero => simp only [Builder.popLoop] at h; cases h; exact hacc
      | succ k => exact step _ h

/-! ## The invariant of all histories -/

structure Flipset.Inv (ord : Option (List SortCol)) (fs : Flipset K) : Prop where
  items : ∀ i ∈ fs.items, ItemOK fs i ∧ ∃ c, i.cost = .fin c
  rows : (fs.items.map (fs.itemRow 0)).Perm (fs.rows.map FlipRow.bare)
  labels : (fs.rows.map (·.label)).Perm (List.range fs.rows.length)
  inplace : fs.sortInplace = ord.isSome
  cols : ∀ cols, ord = some cols → fs.sortBy = cols
  sorted : ∀ cols, ord = some cols → fs.rows.Pairwise fun r s => rowLe cols r s = true

/-- Changes outside the table. -/
theorem Flipset.Inv.congr (h : fs.Inv ord) (h1 : fs'.items = fs.items) (h2 : fs'.rows = fs.rows)
    (h3 : fs'.names = fs.names) (h4 : fs'.x = fs.x) (h5 : fs'.coefs = fs.coefs) (h6 : fs'.intercept = fs.intercept)
    (h7 : fs'.sortBy = fs.sortBy) (h8 : fs'.sortInplace = fs.sortInplace) : fs'.Inv ord := by
  obtain ⟨aset, names, backend, x, coefs, intercept, builder, items, rows, sortBy, inp⟩ := fs
  obtain ⟨aset', names', backend', x', coefs', intercept', builder', items', rows', sortBy', inp'⟩ := fs'
  dsimp only at h1 h2 h3 h4 h5 h6 h7 h8
  subst h1 h2 h3 h4 h5 h6 h7 h8
  exact ⟨fun i hi => ⟨⟨((h.items i hi).1).act, ((h.items i hi).1).cost, ((h.items i hi).1).feasible⟩, (h.items i hi).2⟩,
    h.rows, h.labels, h.inplace, h.cols, h.sorted⟩

theorem ItemOK.congr {i : Info K} (h : ItemOK fs i) (h3 : fs'.names = fs.names) (h4 : fs'.x = fs.x)
    (h5 : fs'.coefs = fs.coefs) (h6 : fs'.intercept = fs.intercept) : ItemOK fs' i := by
  obtain ⟨aset, names, backend, x, coefs, intercept, builder, items, rows, sortBy, inp⟩ := fs
  obtain ⟨aset', names', backend', x', coefs', intercept', builder', items', rows', sortBy', inp'⟩ := fs'
  dsimp only at h3 h4 h5 h6
  subst h3 h4 h5 h6
  exact ⟨h.act, h.cost, h.feasible⟩

theorem Flipset.Inv.resort (h : fs.Inv ord) : fs.resort.Inv ord := by
  obtain ⟨h1, h2, h3, h4, h5, h6, h7, h8⟩ := resort_fields fs
  refine ⟨?_, ?_, ?_, ?_, ?_, ?_⟩
  · rw [h1]; exact fun i hi => ⟨(h.items i hi).1.congr h2 h3 h4 h5, (h.items i hi).2⟩
  · rw [h1]
    have : fs.resort.itemRow 0 = fs.itemRow 0 := by
      unfold Flipset.resort; split_ifs <;> rfl
    rw [this]
    exact h.rows.trans (h8.map _).symm
  · exact ((h8.map _).trans h.labels).trans (by rw [h8.length_eq])
  · rw [h7]; exact h.inplace
  · intro cols hc; rw [h6]; exact h.cols cols hc
  · intro cols hc
    have hi := h.inplace
    rw [hc] at hi
    have hs : fs.resort.rows = sortRows cols fs.rows := by
      unfold Flipset.resort
      rw [if_pos (by rw [hi]; rfl), h.cols cols hc]
    rw [hs]
    exact sortRows_pairwise _ _

theorem Flipset.Inv.add {l : List (Info K)} (h : fs.Inv ord)
    (hl : ∀ i ∈ l, i.feasible = true → ∃ c, i.cost = .fin c) (ha : fs.add l = .ok fs') : fs'.Inv ord := by
  obtain ⟨h1, rfl⟩ := flipAdd_ok ha
  by_cases he : l.isEmpty = true
  · rw [if_pos he]; exact h
  rw [if_neg he]
  -- sort order is restored by `resort`
  obtain ⟨g1, g2, g3, g4, g5, g6, g7, g8⟩ := resort_fields (fs.appended l)
  refine ⟨?_, ?_, ?_, ?_, ?_, ?_⟩
  · rw [g1]
    intro i hi
    rcases List.mem_append.mp hi with hi | hi
    · exact ⟨(h.items i hi).1.congr g2 g3 g4 g5, (h.items i hi).2⟩
    · exact ⟨(h1 i hi).congr g2 g3 g4 g5, hl i hi (h1 i hi).feasible⟩
  · rw [g1]
    have : (fs.appended l).resort.itemRow 0 = fs.itemRow 0 := by
      unfold Flipset.resort; split_ifs <;> rfl
    rw [this]
    refine List.Perm.trans ?_ (g8.map _).symm
    unfold Flipset.appended
    dsimp only
    rw [relabel_bare, List.map_append, List.map_append]
    refine h.rows.append ?_
    rw [List.map_map]
    exact List.Perm.refl _
  · refine ((g8.map _).trans ?_)
    rw [g8.length_eq]
    unfold Flipset.appended
    dsimp only
    rw [relabel_labels, relabel_length]
  · rw [g7]; exact h.inplace
  · intro cols hc; rw [g6]; exact h.cols cols hc
  · intro cols hc
    have hi := h.inplace
    rw [hc] at hi
    unfold Flipset.resort Flipset.appended
    dsimp only
    rw [if_pos (by rw [hi]; rfl), h.cols cols hc]
    exact sortRows_pairwise _ _

theorem Flipset.Inv.populate {fuel : ℕ} {total : Option ℕ} {et : EnumType} {ct : CostType} {r : Except Err Unit} (ih : fs.Inv ord)
    (h : fs.populate ext o fuel total et ct = some (fs', r)) : fs'.Inv ord := by
  rcases populate_flip h with ⟨er, A, b, -, rfl⟩ | ⟨A, b0, b, infos, -, hp, ha, -⟩
  · exact ih.congr rfl rfl rfl rfl rfl rfl rfl rfl
  · refine Flipset.Inv.add (fs := { fs with aset := A, builder := some b })
      (ih.congr rfl rfl rfl rfl rfl rfl rfl rfl) ?_ ha
    exact popLoop_fin (populate_ok hp).2.2 (by simp)

theorem Flipset.Inv.sort {cols : List SortCol} {inplace : Bool} (ih : fs.Inv ord) (h : fs.sort cols inplace = .ok fs') :
    fs'.Inv (if inplace then some cols else none) := by
  unfold Flipset.sort at h
  by_cases hc : cols.isEmpty = true
  · rw [if_pos hc] at h; cases h
  rw [if_neg hc] at h
  cases h
  cases inplace with
  | false =>
    unfold Flipset.resort
    simp only [Bool.false_eq_true, if_false]
    exact ⟨fun i hi => ⟨(ih.items i hi).1.congr rfl rfl rfl rfl, (ih.items i hi).2⟩, ih.rows, ih.labels, rfl,
      (fun cols hc => by cases hc), fun cols hc => by cases hc⟩
  | true =>
    unfold Flipset.resort
    simp only [if_true]
    have hperm : (sortRows cols fs.rows).Perm fs.rows := List.perm_insertionSort _ _
    refine ⟨fun i hi => ⟨(ih.items i hi).1.congr rfl rfl rfl rfl, (ih.items i hi).2⟩,
      ih.rows.trans (hperm.map _).symm, ((hperm.map _).trans ih.labels).trans ?_, rfl,
      (fun cols hc => by cases hc; rfl), fun cols hc => by cases hc; exact sortRows_pairwise _ _⟩
    dsimp only
    rw [hperm.length_eq]

theorem Flipset.Inv.mk' (be : Backend) (A : ActionSet K) (x w : List K) (t : K) (b : Option (Builder K)) :
    (mkFlipset be A x w t b).Inv (some [.size, .cost, .scoreNew]) :=
  ⟨by simp [mkFlipset], by simp [mkFlipset], by simp [mkFlipset], rfl,
    (fun cols hc => by cases hc; rfl), fun cols _ => by simp [mkFlipset]⟩

theorem Flipset.Reachable.inv (h : fs.Reachable ext ord) : fs.Inv ord := by
  induction h with
  | mk be A x w t b => exact .mk' be A x w t b
  | populate hr h ih => exact ih.populate h
  | sortBy hr h ih => exact ih.sort h
  | resort hr ih => exact ih.resort
  | flat hr ih => exact ih.resort
  | user A b hr ih => exact ih.congr rfl rfl rfl rfl rfl rfl rfl rfl

/-! ## C49 -/

theorem Flipset.Inv.table (hi : fs.Inv ord) :
    (∃ rows', rows'.Perm fs.rows ∧
      List.Forall₂ (DescribesItem fs.names fs.x fs.coefs fs.intercept) fs.items rows') ∧
    (fs.rows.map (·.label)).Perm (List.range fs.len) ∧ fs.len = fs.rows.length := by
  have hlen : fs.len = fs.rows.length := by
    have := hi.rows.length_eq
    rw [List.length_map, List.length_map] at this
    exact this
  refine ⟨?_, by rw [hlen]; exact hi.labels, hlen⟩
  have h1 : List.Forall₂ (fun (L r : FlipRow K) => L = r.bare) (fs.rows.map FlipRow.bare) fs.rows := by
    rw [List.forall₂_map_left_iff]
    exact List.forall₂_same.mpr fun _ _ => rfl
  obtain ⟨rows', h2, h3⟩ := List.perm_comp_forall₂ hi.rows h1
  refine ⟨rows', h3, ?_⟩
  rw [List.forall₂_map_left_iff] at h2
  refine List.Forall₂.imp ?_ ((List.forall₂_and_left _ _).mpr ⟨fun i hi' => (hi.items i hi').1, h2⟩)
  rintro i r ⟨hok, he⟩
  have hd := itemRow_describes hok 0
  rw [he] at hd
  exact ⟨hd.ex, hd.cost, hd.feasible⟩

/-- **C49.**  After every history of `populate` (successful or not), `sort` and `to_flat_df`: the rows of
the table correspond one to one to the stored items, each describing its item; their labels are
`0, …, n - 1` in some order; and `len` is the number of rows. -/
theorem C49_table (h : fs.Reachable ext ord) :
    (∃ rows', rows'.Perm fs.rows ∧
      List.Forall₂ (DescribesItem fs.names fs.x fs.coefs fs.intercept) fs.items rows') ∧
    (fs.rows.map (·.label)).Perm (List.range fs.len) ∧ fs.len = fs.rows.length :=
  h.inv.table

/-! ## C50 -/

theorem Flipset.Inv.order {cols : List SortCol} (hi : fs.Inv (some cols)) :
    fs.rows.Pairwise (OrderedBy cols) := by
  have hfin : ∀ r ∈ fs.rows, FinCost r := by
    intro r hr
    have h1 : r.bare ∈ fs.items.map (fs.itemRow 0) := hi.rows.mem_iff.mpr (List.mem_map_of_mem hr)
    obtain ⟨i, hi', he⟩ := List.mem_map.mp h1
    obtain ⟨c, hc⟩ := (hi.items i hi').2
    refine ⟨c, ?_⟩
    have : r.bare.cost = i.cost := by rw [← he]; rfl
    exact this.trans hc
  exact (hi.sorted cols rfl).imp_of_mem fun hr hs h => (rowLe_iff (hfin _ hr) (hfin _ hs)).mp h

/-- **C50.**  Whenever an order is in force – the default `size, cost, score_new`, or the one of the last
in-place `sort(by = …)` – the rows are in that order, whatever the history of `populate` and `sort`. -/
theorem C50_order {cols : List SortCol} (h : fs.Reachable ext (some cols)) :
    fs.rows.Pairwise (OrderedBy cols) :=
  h.inv.order

/-! ## C52 -/

/-- **C52.**  `populate` is all or nothing: if it raises, items and table are as before; otherwise the items
found by the builder are appended to the items.  All stored items have actions of the right length that
change something, a positive finite cost, and `feasible = True`. -/
theorem C52_atomic (h : fs.Reachable ext ord) {fuel : ℕ} {total : Option ℕ} {et : EnumType} {ct : CostType}
    {r : Except Err Unit} (hp : fs.populate ext o fuel total et ct = some (fs', r)) :
    ((∃ er, r = .error er) → fs'.items = fs.items ∧ fs'.rows = fs.rows) ∧
    (r = .ok () → ∃ (b0 b : Builder K) (l : List (Info K)), b0.populate o et fuel total = .ok (some (b, l)) ∧
      fs'.builder = some b ∧ fs'.items = fs.items ++ l ∧
      (fs.builder = some b0 ∨ (fs.builder = none ∧ ∃ c : Builder K,
        mkBuilder fs.backend ct fs.aset fs.coefs fs.intercept = .ok c ∧ c.setX ext fs.x = (b0, .ok ())))) ∧
    ∀ i ∈ fs'.items, ∃ a c, i.actions = some a ∧ a.length = fs.names.length ∧ 1 ≤ numChanged a ∧
      i.cost = .fin c ∧ 0 < c ∧ i.feasible = true := by
  have hr' : fs'.Reachable ext ord := Flipset.Reachable.populate h hp
  have hn : fs'.names = fs.names := by
    rcases populate_flip hp with ⟨er, A, b, -, rfl⟩ | ⟨A, b0, b, infos, -, -, ha, -⟩
    · rfl
    · obtain ⟨-, rfl⟩ := flipAdd_ok ha
      split_ifs
      · rfl
      · exact (resort_fields _).2.1
  refine ⟨?_, ?_, ?_⟩
  · rintro ⟨er, rfl⟩
    rcases populate_flip hp with ⟨er, A, b, -, rfl⟩ | ⟨A, b0, b, infos, he, -⟩
    · exact ⟨rfl, rfl⟩
    · cases he
  · rintro rfl
    rcases populate_flip hp with ⟨er, A, b, he, -⟩ | ⟨A, b0, b, infos, -, h1, ha, hb⟩
    · cases he
    · refine ⟨b0, b, infos, h1, ?_⟩
      rw [← and_assoc]
      refine ⟨?_, hb.imp (·.1) fun ⟨g1, c, g2, g3, _⟩ => ⟨g1, c, g2, g3⟩⟩
      obtain ⟨-, rfl⟩ := flipAdd_ok ha
      by_cases hl : infos.isEmpty = true
      · rw [if_pos hl, List.isEmpty_iff.mp hl, List.append_nil]; exact ⟨rfl, rfl⟩
      · rw [if_neg hl]
        refine ⟨?_, (resort_fields _).1⟩
        unfold Flipset.resort; split_ifs <;> rfl
  · intro i hi
    obtain ⟨⟨⟨a, h1, h2, -, -, h5, -⟩, h6, h7⟩, c, hc⟩ := hr'.inv.items i hi
    refine ⟨a, c, h1, h2.trans (by rw [hn]), by rw [← flatnonzero_length]; exact h5, hc, ?_, h7⟩
    rw [hc] at h6
    exact of_decide_eq_true h6

end Recourse
